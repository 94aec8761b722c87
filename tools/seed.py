#!/usr/bin/env python3
"""Seeded-bug runner: seed.py mutants.json. Works in /tmp/seed (a scratch copy of the Lean project); appends to
/verif/seeded/LOG.jsonl. Each mutant: {file, old, new, def, claim, [tightened]}."""
import json,sys,subprocess,re,os,shutil
src='/verif/lean'; dst='/tmp/seed/lean'
muts=json.load(open(sys.argv[1]))
subprocess.run(['rsync','-a','--delete',src+'/',dst+'/']) if shutil.which('rsync') else (shutil.rmtree(dst,ignore_errors=True),shutil.copytree(src,dst,symlinks=True))
def thm_at(path,line):
    ls=open(path).read().split('\n')
    for i in range(line-1,-1,-1):
        m=re.match(r'\s*(?:private |noncomputable |protected )*(?:theorem|lemma|def|instance|example)\s*([\w.\'«»]*)',ls[i])
        if m: return m.group(1) or 'example@%d'%(i+1)
    return '?'
for m in muts:
    p=dst+'/'+m['file']; orig=open(p).read()
    if orig.count(m['old'])!=1:
        print('BAD MUTANT (count %d):'%orig.count(m['old']),m['def'],m['old'][:60]); continue
    open(p,'w').write(orig.replace(m['old'],m['new']))
    r=subprocess.run(['lake','build'],cwd=dst,capture_output=True,text=True,timeout=3000)
    out=r.stdout+r.stderr
    failed=[]
    for e in re.finditer(r'error: (Verif/[\w/]+\.lean):(\d+):\d+',out):
        t=thm_at(dst+'/'+e.group(1),int(e.group(2)))
        if t not in failed: failed.append(t)
    blocked=re.findall(r'^- (Verif[\w.]*)',out,re.M)
    open(p,'w').write(orig)
    rec={'definition':m['def'],'file':m['file'],'edit':m.get('edit',m['old'].strip()+'  ==>  '+m['new'].strip()),'claim':m['claim'],
         'failed':failed,'outcome':'caught' if failed else 'SURVIVED','tightened':m.get('tightened',[])}
    if m.get('note'): rec['note']=m['note']
    print(rec['outcome'],m['def'],'|',rec['edit'][:70],'|',failed[:6])
    open('/verif/seeded/LOG.jsonl','a').write(json.dumps(rec,ensure_ascii=False)+'\n')
