"""Regenerate AXIOMS.md: the axioms of every theorem of MANIFEST.json, as printed by Lean (run after `lake build`)."""
import json
import os
import re
import subprocess

root = os.path.dirname(os.path.dirname(os.path.abspath(__file__)))
claims = json.load(open(os.path.join(root, 'MANIFEST.json')))['claims']
names = [(c['property'], t) for c in claims for t in c['theorems']]
path = '/tmp/axioms_query.lean'
open(path, 'w').write('import Verif\n' + ''.join(f'#print axioms {t}\n' for _, t in names))
txt = subprocess.run(['lake', 'env', 'lean', path], cwd=os.path.join(root, 'lean'), capture_output=True, text=True).stdout
found = {}
for m in re.finditer(r"'([^']+(?:'[^' ]*)*)' (depends on axioms: \[(.*?)\]|does not depend on any axioms)", txt, re.S):
    found[m.group(1)] = ' '.join((m.group(3) or 'none').split())
allowed = {'propext', 'Classical.choice', 'Quot.sound', 'none'}
out = ['# Axioms per theorem', '', 'Generated by `tools/axioms.py` (`#print axioms`).', '']
groups = {}
for p, t in names:
    a = found[t]
    assert set(a.split(', ')) <= allowed, (t, a)
    groups.setdefault(a, {}).setdefault(p, []).append(t.split('.')[-1])
for a, ps in sorted(groups.items()):
    out += [f'## {a}', '']
    out += [f'* {p}: ' + ', '.join(f'`{t}`' for t in ts) for p, ts in ps.items()] + ['']
open(os.path.join(root, 'AXIOMS.md'), 'w').write('\n'.join(out))
print({a: sum(map(len, ps.values())) for a, ps in groups.items()})
