#!/usr/bin/env python3
"""Regenerate MANIFEST.json and lean/Verif.lean from the sources."""
import re, json, glob, os
root = os.path.dirname(os.path.dirname(os.path.abspath(__file__)))
files = sorted(glob.glob(root + '/lean/Verif/**/*.lean', recursive=True))
mods = ['Verif.' + os.path.relpath(f, root + '/lean/Verif')[:-5].replace('/', '.') for f in files]
open(root + '/lean/Verif.lean', 'w').write(''.join('import %s\n' % m for m in mods))
thms = {}
for f in files:
    for m in re.finditer(r'^theorem (C\d\d\d?)_(\w+)', open(f).read(), re.M):
        thms.setdefault(m.group(1), []).append('Ranx.' + m.group(1) + '_' + m.group(2))
notes = json.load(open(root + '/tools/notes.json'))
props = [json.loads(l) for l in open(root + '/properties.jsonl')]
claims = []
for p in props:
    i = p['id']
    n = notes.get(i, {})
    t = thms.get(i, [])
    if not t and n.get('status') != 'not_applicable':
        print('no theorem for', i); continue
    claims.append({'property': i, 'status': n.get('status', 'proved'), 'theorems': t, 'note': n.get('note', p['title'])})
for i in thms:
    if i not in [p['id'] for p in props]: print('theorem without property', i)
json.dump({'claims': claims}, open(root + '/MANIFEST.json', 'w'), indent=1)
print(len(claims), 'claims', sum(len(c['theorems']) for c in claims), 'theorems')
