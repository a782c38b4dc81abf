#!/usr/bin/env python3
"""Collects the property theorems (Mpc.Props.cNN_*) into MANIFEST.json."""
import re, glob, json, os
root = os.path.dirname(os.path.dirname(os.path.abspath(__file__)))
thms = {}
for f in sorted(glob.glob(root + '/lean/Verif/Props/*.lean')):
    for m in re.finditer(r'^theorem (c(\d\d\d?)_\w+)', open(f).read(), re.M):
        thms.setdefault('C' + m.group(2), []).append('Mpc.Props.' + m.group(1))
notes = json.load(open(root + '/tools/notes.json'))
claims = []
for l in open(root + '/properties.jsonl'):
    i = json.loads(l)['id']
    t = thms.get(i, [])
    if not t:
        print('no theorems:', i)
        continue
    part = any(x.endswith('_violated') or x.endswith('_partial') for x in t)
    if i not in notes: print('no note:', i)
    claims.append({'property': i, 'status': 'partial' if part else 'proved', 'theorems': t, 'note': notes.get(i, '')})
json.dump({'claims': claims}, open(root + '/MANIFEST.json', 'w'), indent=1, ensure_ascii=False)
