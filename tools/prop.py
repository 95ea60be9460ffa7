"""append or replace a property: prop.py ID TITLE STATEMENT QUANTIFIER WHY ANCHOR..."""
import json, sys
i, t, s, q, w, *a = sys.argv[1:]
L = [json.loads(l) for l in open('/verif/properties.jsonl')]
p = dict(id=i, title=t, statement=s, quantifier=q, why_tests_cant=w, anchors=a)
if any(x['id'] == i for x in L):
    L = [p if x['id'] == i else x for x in L]
else:
    L.append(p)
open('/verif/properties.jsonl', 'w').write(''.join(json.dumps(x, ensure_ascii=False) + '\n' for x in L))
