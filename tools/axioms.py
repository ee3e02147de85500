#!/usr/bin/env python3
"""Write AXIOMS.md: the axioms each theorem of MANIFEST.json depends on, as printed by Lean (run after lake build)."""
import json, os, re, subprocess
root = os.path.dirname(os.path.dirname(os.path.abspath(__file__)))
claims = json.load(open(root + '/MANIFEST.json'))['claims']
names = [t for c in claims for t in c['theorems']]
tmp = root + '/lean/axioms_tmp.lean'
with open(tmp, 'w') as f:
    f.write('import Verif\n' + ''.join(f'#print axioms {t}\n' for t in names))
try:
    out = subprocess.run(['lake', 'env', 'lean', tmp], cwd=root + '/lean', capture_output=True, text=True).stdout
finally:
    os.remove(tmp)
found = {}
for name, axs in re.findall(r"'([^']+)' depends on axioms: \[([^\]]*)\]", out):
    found[name] = ', '.join(axs.split()).replace(',,', ',')
for name in re.findall(r"'([^']+)' does not depend on any axioms", out):
    found[name] = 'none'
missing = [t for t in names if t not in found]
assert not missing, missing
allowed = {'propext', 'Classical.choice', 'Quot.sound', 'none'}
for t in names:
    assert set(re.split(r',\s*', found[t])) <= allowed, (t, found[t])
with open(root + '/AXIOMS.md', 'w') as f:
    f.write('# Axioms each claimed theorem depends on\n\nWritten by `tools/axioms.py` from `#print axioms`.\n\n| theorem | axioms |\n|---|---|\n')
    for t in names:
        f.write(f'| {t} | {found[t]} |\n')
print(len(names), 'theorems')
