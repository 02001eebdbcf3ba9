"""Regenerate /verif/MANIFEST.json from the theorem names in lean/Verif and tools/status.json.

A theorem belongs to property Cnn when its name starts with ``Cnn_``. Status and note come from
tools/status.json: {"C01": ["partial", "note"], ...}.
"""
import json
import os
import re

root = os.path.dirname(os.path.dirname(os.path.abspath(__file__)))
status = json.load(open(os.path.join(root, 'tools', 'status.json')))
props = [json.loads(l) for l in open(os.path.join(root, 'properties.jsonl')) if l.strip()]
found = {}
for d, _, fs in sorted(os.walk(os.path.join(root, 'lean', 'Verif'))):
    for f in sorted(fs):
        if not f.endswith('.lean'):
            continue
        stack = []
        for line in open(os.path.join(d, f)):
            m = re.match(r'namespace (\S+)', line)
            if m:
                stack.append(m.group(1))
            m = re.match(r'end (\S+)', line)
            if m and stack and stack[-1] == m.group(1):
                stack.pop()
            m = re.match(r'(?:noncomputable )?theorem ((C\d\d+)_\S+)', line)
            if m:
                found.setdefault(m.group(2), []).append('.'.join(stack + [m.group(1)]))
claims = []
for p in props:
    i = p['id']
    st, note = status.get(i, ['not_applicable', 'not modelled yet'])
    th = found.get(i, [])
    if st != 'not_applicable' and not th:
        raise SystemExit(f'{i}: status {st} without theorems')
    if th and st == 'not_applicable':
        raise SystemExit(f'{i}: has theorems but no status')
    claims.append({'property': i, 'status': st, 'theorems': th, 'note': note})
for i in found:
    if i not in {p['id'] for p in props}:
        raise SystemExit(f'{i}: theorem without property')
json.dump({'claims': claims}, open(os.path.join(root, 'MANIFEST.json'), 'w'), indent=1, ensure_ascii=False)
print(len(claims), 'claims,', sum(len(c['theorems']) for c in claims), 'theorems')
