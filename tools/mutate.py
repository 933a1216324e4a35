#!/usr/bin/env python3
"""Mutation tests. usage: mutate.py specs.json   (run with a scratch copy in /tmp/mut)
specs: list of {def, file, old, new, edit, claim}. Appends results to seeded/LOG.jsonl.
Survivors (nothing failed) are printed loudly and are NOT logged: tighten, then rerun, or log by hand."""
import json,sys,subprocess,os,re,shutil
M='/tmp/mut'
subprocess.run(['rsync','-a','--delete','/verif/lean/',M+'/'],check=True) if shutil.which('rsync') else (shutil.rmtree(M,ignore_errors=True),subprocess.run(['cp','-a','/verif/lean',M],check=True))
specs=json.load(open(sys.argv[1]))
log=open('/verif/seeded/LOG.jsonl','a')
def enclosing(f,line):
    name=None
    for i,l in enumerate(open(f),1):
        if i>line: break
        m=re.match(r'(?:@\[.*?\]\s*)?(?:private |protected |noncomputable )*(theorem|lemma|example|def|instance)\s*(\S*)',l)
        if m: name=m.group(2) if m.group(1)!='example' else 'example@%d'%i
    return name
for s in specs:
    p=M+'/'+s['file']; src=open(p).read()
    if src.count(s['old'])!=1:
        print('BADSPEC',s['def'],src.count(s['old'])); continue
    open(p,'w').write(src.replace(s['old'],s['new']))
    r=subprocess.run('timeout 1200 lake build',shell=True,cwd=M,capture_output=True,text=True)
    open(p,'w').write(src)
    fails=[]
    for m in re.finditer(r'error: (Verif/\S+?\.lean):(\d+):',r.stdout+r.stderr):
        if m.group(1)==s['file'] and s['file'].startswith('Verif') and False: continue
        n=enclosing(M+'/'+m.group(1),int(m.group(2)))
        e='%s (%s)'%(n,m.group(1))
        if e not in fails: fails.append(e)
    deffail=[x for x in fails if x.startswith(s['def']+' ')]
    if not fails: print('SURVIVED',s['def'],'|',s['edit'],'| rc',r.returncode); 
    else: print('killed',s['def'],'|',s['edit'],'|',fails[:6], 'DEF FAILED!' if deffail else '')
    if fails:
        log.write(json.dumps(dict(definition=s['def'],file=s['file'],edit=s['edit'],claim=s['claim'],failed=fails,tightened=s.get('tightened',[])))+'\n'); log.flush()
