#!/usr/bin/env python3
"""Run seeded-bug mutations of the model in a scratch copy (default /tmp/mut/lean).
usage: mutate.py muts.json ; each entry {file, old, new, def, edit, claim}.  Appends to a results file."""
import json,subprocess,re,sys,os,shutil
src='/verif/lean'; scr=sys.argv[3] if len(sys.argv)>3 else '/tmp/mut/lean'
muts=json.load(open(sys.argv[1])); out=sys.argv[2]
def decl(path,line):
    ls=open(path).read().split('\n')
    for i in range(min(line,len(ls))-1,-1,-1):
        m=re.match(r'\s*(?:private |noncomputable |protected |@\[.*?\] ?)*(theorem|lemma|def|example|instance|structure|inductive|abbrev)\s*(\S*)',ls[i])
        if m:
            return m.group(2) if m.group(1)!='example' else f'example@{os.path.basename(path)}:{i+1}'
    return '?'
for m in muts:
    p=f"{scr}/Verif/{m['file']}.lean"
    # sync all sources first
    for f in os.listdir(src+'/Verif'):
        a=open(f'{src}/Verif/{f}').read(); b=f'{scr}/Verif/{f}'
        if not os.path.exists(b) or open(b).read()!=a: open(b,'w').write(a)
    shutil.copy(src+'/Verif.lean',scr+'/Verif.lean')
    s=open(p).read()
    n=s.count(m['old'])
    if n!=1 and not m.get('all'):
        print('!! pattern count',n,m['file'],m['old'][:60]); continue
    open(p,'w').write(s.replace(m['old'],m['new']))
    try:
        r=subprocess.run(['lake','build'],cwd=scr,capture_output=True,text=True,timeout=500)
        txt=r.stdout+r.stderr
    except subprocess.TimeoutExpired as e:
        txt='timeout'; subprocess.run(['pkill','-f',scr+'/'])
    fails=['(build timeout)'] if txt=='timeout' else []
    for mm in re.finditer(r'error: (?:\S*/)?(Verif/\S+?\.lean):(\d+):\d+',txt):
        d=decl(f'{scr}/{mm.group(1)}',int(mm.group(2)))
        if d not in fails: fails.append(d)
    blocked=re.findall(r'error: .*bad import|^- (Verif\.\S+)',txt,re.M)
    res=dict(m); res['failed']=fails; res['blocked']=blocked
    open(out,'a').write(json.dumps(res)+'\n')
    c=[f for f in fails if re.match(r'C\d\d',f)]
    print(m['file'],'|',m['edit'],'|',m['claim'],'->','C:',c,'other:',[f for f in fails if f not in c][:8],flush=True)
    open(p,'w').write(s)
