#!/usr/bin/env python3
"""Writes AXIOMS.txt: the axioms each theorem of MANIFEST.json depends on, as Lean prints them. Run after `lake build`."""
import json, os, re, subprocess, tempfile
root = os.path.dirname(os.path.dirname(os.path.abspath(__file__)))
claims = json.load(open(root + '/MANIFEST.json'))['claims']
names = [(c['property'], t) for c in claims for t in c['theorems']]
with tempfile.NamedTemporaryFile('w', suffix='.lean', delete=False) as f:
    f.write('import Verif\n' + ''.join(f'#print axioms {t}\n' for _, t in names))
out = subprocess.run(['lake', 'env', 'lean', f.name], cwd=root + '/lean', capture_output=True, text=True).stdout
os.unlink(f.name)
found = {}
for m in re.finditer(r"'([\w.']+)' (?:depends on axioms: \[([^\]]*)\]|does not depend on any axioms)", out):
    found[m[1]] = ', '.join(m[2].split(',')).replace('\n', '') if m[2] else 'none'
with open(root + '/AXIOMS.txt', 'w') as g:
    for p, t in names: g.write(f"{p} {t}: {re.sub(' +', ' ', found[t])}\n")
