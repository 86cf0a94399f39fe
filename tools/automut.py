#!/usr/bin/env python3
"""Mechanical wrong programs: edits the definitions of the models that no attempt of seeded/LOG.jsonl has edited (or those named in argv),
in a scratch copy (/tmp/am), and prints which edits no theorem notices. usage: automut.py [seed] [file-regex] [per-def] [all]"""
import sys, subprocess, re, json, os, random, glob, signal
S='/tmp/am'; L=f'{S}/lean'
def sh(c,**k): return subprocess.run(c,shell=True,capture_output=True,text=True,**k)
seed=int(sys.argv[1]) if len(sys.argv)>1 else 1
rx=sys.argv[2] if len(sys.argv)>2 else '.'
per=int(sys.argv[3]) if len(sys.argv)>3 else 1
everything=len(sys.argv)>4
random.seed(seed)
os.makedirs(S,exist_ok=True)
sh(f'rm -rf {L} && cp -a /verif/lean {L}')
print(sh('lake build 2>&1 | tail -1',cwd=L).stdout,flush=True)
done=set()
for l in open('/verif/seeded/LOG.jsonl'):
    for d in re.split(r'[ ,]+',json.loads(l)['definition']): done.add(d.split('.')[-1])
OPS=[(r' < ',' ≤ '),(r' ≤ ',' < '),(r' > ',' ≥ '),(r' ≥ ',' > '),(r' && ',' || '),(r' \|\| ',' && '),(r' ∧ ',' ∨ '),(r' ∨ ',' ∧ '),(r' == ',' != '),(r' != ',' == '),
 (r' ≠ ',' = '),(r'\btrue\b','false'),(r'\bfalse\b','true'),(r'\.any\b','.all'),(r'\.all\b','.any'),(r'\.take\b','.drop'),(r'\.drop\b','.take'),(r'¬ ?',''),(r'(?<=[( ])!(?=[a-zA-Z(])',''),
 (r'\bmin\b','max'),(r'\bmax\b','min'),(r'\bif (?!let|h |h:|←|¬)((?:(?!then|←| : ).)+) then','if ¬ (\\1) then'),(r'\bif ← ((?:(?!then| : ).)+) then','if !(← \\1) then'),
 (r'(?<![\w.])(\d+)(?![\w.])',lambda m:str(int(m.group(1))+1)),(r'DROP','DROP')]
def defs(src):
    ms=list(re.finditer(r'^(?:partial |private |noncomputable |@\[[^\]]*\] ?)*(def|abbrev|theorem|lemma|structure|inductive|example|instance|end|namespace|open|variable|section|/-|mutual)',src,re.M))
    out=[]
    for i,m in enumerate(ms):
        if m.group(1)!='def': continue
        e=ms[i+1].start() if i+1<len(ms) else len(src)
        n=re.match(r"[^\n]*?def ([\w.'?!]+)",src[m.start():e]).group(1)
        out.append((n,m.start(),e))
    return out
def mutants(body):
    res=[]
    c=body.find(':=') if ':=' in body.split('\n')[0] else (body.find('\n') if '|' in body else body.find(':='))
    if c<0: c=0
    for pat,rep in OPS:
        if pat=='DROP':
            lines=body.split('\n')
            for i in range(1,len(lines)-1):
                l=lines[i]
                if re.match(r'\s+[a-zA-Z]\w* [^|]*$',l) and not re.search(r'←|:=|\b(let|if|match|return|then|else|do|fun|for|pure|where|with)\b|\|',l) and 'do' in body and i+1<len(lines) and lines[i+1].strip():
                    res.append(('drop: '+l.strip(),'\n'.join(lines[:i]+lines[i+1:])))
            continue
        for m in re.finditer(pat,body):
            if m.start()<c: continue
            ls=body.rfind('\n',0,m.start())+1
            line=body[ls:m.start()]
            if '--' in line or line.lstrip().startswith('|') and '=>' not in line and pat.startswith('(?<![') : continue
            new=body[:m.start()]+(m.expand(rep) if isinstance(rep,str) else rep(m))+body[m.end():]
            le=body.find('\n',m.start()); le=len(body) if le<0 else le
            nl=new[ls:new.find('\n',m.start()) if new.find('\n',m.start())>=0 else len(new)]
            res.append((f'{body[ls:le].strip()}  ==>  {nl.strip()}',new))
    return res
def build(targets):
    p=subprocess.Popen(f'timeout --foreground 300 lake build {targets} 2>&1',shell=True,cwd=L,stdout=subprocess.PIPE,text=True,preexec_fn=os.setsid)
    err=None
    for l in p.stdout:
        if re.search(r'error: Verif/',l): err=l; break
        if 'error' in l: err=err or l
    if err and p.poll() is None:
        try: os.killpg(p.pid,signal.SIGTERM)
        except ProcessLookupError: pass
    r=p.wait()
    sh('pkill -f /tmp/am/lean/Verif')
    if r and not err: err='timeout'
    return err
jobs=[]
for f in sorted(glob.glob(f'{L}/Verif/*/Model*.lean')):
    rel=f[len(L)+1:]
    if not re.search(rx,rel): continue
    src=open(f).read()
    for n,a,e in defs(src):
        if not everything and n.split('.')[-1] in done: continue
        ms=mutants(src[a:e])
        random.shuffle(ms)
        for d,new in ms[:per]: jobs.append((rel,n,d,src,src[:a]+new+src[e:]))
random.shuffle(jobs)
print(len(jobs),'mutants',flush=True)
k=dict(s=0,k=0,b=0)
for rel,n,d,src,new in jobs:
    p=f'{L}/{rel}'
    open(p,'w').write(new)
    mod=rel[:-5].replace('/','.')
    err=build(mod)
    if err:
        g=re.search(r'\.lean:(\d+):',err)
        lines=new.split('\n'); kind=''
        if g and 'error: '+rel in err:
            for i in range(int(g.group(1))-1,-1,-1):
                q=re.match(r'\s*(?:@\[.*\]\s*)?(?:private |partial )*(theorem|lemma|def|example|instance|structure)\b',lines[i])
                if q: kind=q.group(1); break
        st='KILL' if kind in('theorem','lemma','example') else 'BORN'
        k['k' if st=='KILL' else 'b']+=1
        if st=='BORN': print('stillborn',rel,n,'|',d[:200],flush=True)
    else:
        err=build('')
        if err: k['k']+=1; print('killed',rel,n,'|',d[:200],'|',err.strip()[:80],flush=True)
        else: k['s']+=1; print('SURVIVED',rel,n,'|',d[:300],flush=True)
    open(p,'w').write(src)
print(k)
