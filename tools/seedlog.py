#!/usr/bin/env python3
"""seedlog.py RESULTS: append results of the mutation harness to seeded/LOG.jsonl (skips invalid edits)."""
import json,sys,os,re
LOG='/verif/seeded/LOG.jsonl'
os.makedirs('/verif/seeded',exist_ok=True)
seen=set()
if os.path.exists(LOG):
    for l in open(LOG):
        d=json.loads(l); seen.add((d['definition'],d['edit'],bool(d['tightened'])))
n=0
with open(LOG,'a') as o:
    for l in open(sys.argv[1]):
        r=json.loads(l)
        if r.get('invalid') or r['def_errors']: continue
        m=r['mu']; t=m.get('tightened',[])
        D=m['file']+': '+m['definition']; E=m['edit']+'   [ '+m['old']+'  ==>  '+m['new']+' ]'
        k=(D,E,bool(t))
        if k in seen: continue
        seen.add(k); n+=1
        o.write(json.dumps({'definition':D,'edit':E,'claim':m['claim'],
            'failed':sorted(set(r['C'])|{'Ranx.'+x for f in r['failed_decls'] for x in re.findall(r'theorem (C\d\d\d?_\w+)',f)}),'failed_declarations':r['failed_decls'],'tightened':t},ensure_ascii=False)+'\n')
print(n)
