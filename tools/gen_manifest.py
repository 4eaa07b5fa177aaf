#!/usr/bin/env python3
"""Regenerates MANIFEST.json from the theorem names in lean/Verif/Props and the notes below."""
import json, os, re, glob
here = os.path.dirname(os.path.abspath(__file__)); root = os.path.dirname(here)
thms = {}
for f in sorted(glob.glob(root + '/lean/Verif/Props/*.lean')):
    for m in re.finditer(r'^theorem (C(\d+)_\w+)', open(f).read(), re.M):
        thms.setdefault('C' + m.group(2), []).append('Verif.' + m.group(1))
ns = {}
exec(open(here + '/notes.py').read(), ns)
claims = []
for l in open(root + '/properties.jsonl'):
    i = json.loads(l)['id']
    t = sorted(thms.get(i, []))
    weak = any('_partial' in x or '_violated' in x for x in t)
    st = ns['STATUS'].get(i) or ('partial' if weak or not t else 'proved')
    note = ns['NOTE'].get(i, '')
    claims.append(dict(property=i, status=st, theorems=t, note=note))
    if weak and not note: print('no note:', i)
    if not t: print('no theorem:', i)
for i in thms:
    if i not in [c['property'] for c in claims]: print('no property:', i)
json.dump(dict(claims=claims), open(root + '/MANIFEST.json', 'w'), indent=1)
