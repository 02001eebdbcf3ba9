"""Append a property, a DESIGN.md table row and a status: reads JSON objects from stdin, one per line:
{"prop": {...}, "row": "| ... |", "status": ["proved", "note"]} (any key may be missing)."""
import json
import os
import sys

root = os.path.dirname(os.path.dirname(os.path.abspath(__file__)))
pp = os.path.join(root, 'properties.jsonl')
sp = os.path.join(root, 'tools', 'status.json')
dp = os.path.join(root, 'DESIGN.md')
status = json.load(open(sp))
for line in sys.stdin:
    if not line.strip():
        continue
    o = json.loads(line)
    ids = [json.loads(l)['id'] for l in open(pp) if l.strip()]
    i = o.get('id') or o['prop']['id']
    if 'prop' in o:
        assert i not in ids, i
        assert set(o['prop']) == {'id', 'title', 'statement', 'quantifier', 'why_tests_cant', 'anchors'}, i
        with open(pp, 'a') as f:
            f.write(json.dumps(o['prop'], ensure_ascii=False) + '\n')
    if 'row' in o:
        lines = open(dp).read().split('\n')
        k = max(n for n, l in enumerate(lines) if l.startswith('| C'))
        lines.insert(k + 1, o['row'])
        open(dp, 'w').write('\n'.join(lines))
    if 'status' in o:
        status[i] = o['status']
with open(sp, 'w') as f:
    f.write('{\n' + ',\n'.join(f'{json.dumps(k)}: {json.dumps(v, ensure_ascii=False)}' for k, v in sorted(status.items(), key=lambda kv: int(kv[0][1:]))) + '\n}\n')
