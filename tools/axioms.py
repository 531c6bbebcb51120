#!/usr/bin/env python3
"""Write AXIOMS.txt: the axioms that each theorem of MANIFEST.json depends on.  Needs a finished `lake build`."""
import json, os, re, subprocess, tempfile
root = os.path.dirname(os.path.dirname(os.path.abspath(__file__)))
names = [n for c in json.load(open(root + '/MANIFEST.json'))['claims'] for n in c['theorems']]
with tempfile.NamedTemporaryFile('w', suffix='.lean', delete=False) as f:
    f.write('import Verif\n' + ''.join(f'#print axioms {n}\n' for n in names))
out = subprocess.run(['lake', 'env', 'lean', f.name], cwd=root + '/lean', capture_output=True, text=True).stdout
os.unlink(f.name)
deps = {m.group(1): re.sub(r'\s+', ' ', m.group(2) or 'none') for m in
        re.finditer(r"'([^']+)' (?:depends on axioms: \[([^\]]*)\]|does not depend on any axioms)", out)}
missing = [n for n in names if n not in deps]
assert not missing, missing
with open(root + '/AXIOMS.txt', 'w') as g:
    for n in names: g.write(f'{n}: {deps[n]}\n')
print(len(names), 'theorems;', sorted({a for d in deps.values() for a in d.split(', ')}))
