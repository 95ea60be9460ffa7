#!/usr/bin/env python3
"""axioms.py: count the axioms the theorems of MANIFEST.json depend on (after lake build)."""
import re,subprocess,json,collections
m=json.load(open('/verif/MANIFEST.json'))
th=[t for c in m['claims'] for t in c['theorems']]
open('/tmp/ranx_axioms.lean','w').write('import Verif\n'+''.join(f'#print axioms {t}\n' for t in th))
o=subprocess.run(['lake','env','lean','/tmp/ranx_axioms.lean'],cwd='/verif/lean',capture_output=True,text=True).stdout
o=o.replace('\n  ',' ')
c=collections.Counter()
for l in o.split("\n"):
    a=re.search(r"(depends on axioms: \[.*?\]|does not depend.*)",l)
    if a: c[a[1]]+=1
print(len(th),c)
