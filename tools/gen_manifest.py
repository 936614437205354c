#!/usr/bin/env python3
"""Collect the theorems named Cnn_* from lean/Verif and write MANIFEST.json.  A property with a _partial or
_false theorem is 'partial'.  Notes come from tools/notes.json; overrides of status too."""
import re, json, glob, os
root=os.path.dirname(os.path.dirname(os.path.abspath(__file__)))
notes=json.load(open(root+'/tools/notes.json')) if os.path.exists(root+'/tools/notes.json') else {}
th={}
docs={}
src={}
for f in sorted(glob.glob(root+'/lean/Verif/*.lean')):
    ns=[]
    txt=open(f).read()
    for m in re.finditer(r'/--((?:(?!-/).)*)-/\s*(?:set_option[^\n]*\n)*theorem (C\d\d+_\w+)',txt,re.S):
        docs[m.group(2)]=' '.join(m.group(1).split())
    for line in open(f):
        m=re.match(r'namespace (\S+)',line)
        if m: ns.append(m.group(1))
        m=re.match(r'end (\S+)',line)
        if m and ns and ns[-1]==m.group(1): ns.pop()
        m=re.match(r'theorem (C\d\d+)(_\S+)',line)
        if m: th.setdefault(m.group(1),[]).append('.'.join(ns+[m.group(1)+m.group(2)]))
claims=[]
for l in open(root+'/properties.jsonl'):
    p=json.loads(l); i=p['id']; t=th.get(i,[])
    n=notes.get(i,{})
    if isinstance(n,str): n={'note':n}
    if not t:
        if n.get('status')=='not_applicable':
            claims.append({'property':i,'status':'not_applicable','theorems':[],'note':n['note']})
        continue
    st='partial' if any('_partial' in x or '_false' in x for x in t) else 'proved'
    note=n.get('note','')
    if not note:
        parts=[x for x in t if '_partial' in x]; fals=[x for x in t if '_false' in x]
        sh=lambda x: x.split('.')[-1]
        if fals: note+='The full statement does not hold of the code; its negation is proved: '+' | '.join(sh(x)+(': '+docs[sh(x)] if sh(x) in docs else '') for x in fals)+' '
        if parts: note+='What is proved of it: '+' | '.join(sh(x)+(': '+docs[sh(x)] if sh(x) in docs else '') for x in parts)
        if st=='partial' and len(parts)+len(fals)<len(t): note+=' The other theorems listed prove the rest of the statement.'
        if st=='proved':
            first=[docs[sh(x)] for x in t if sh(x) in docs]
            if first: note=first[0]
    claims.append({'property':i,'status':n.get('status',st),'theorems':t+n.get('also',[]),'note':note.strip()})
json.dump({'claims':claims},open(root+'/MANIFEST.json','w'),indent=1,ensure_ascii=False)
print(len(claims),'claims;',[json.loads(l)['id'] for l in open(root+'/properties.jsonl') if json.loads(l)['id'] not in th])
