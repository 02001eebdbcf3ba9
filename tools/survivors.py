"""Collect the edits of seeded/LOG.jsonl that no theorem caught and that have not been answered since.

usage: survivors.py [out.jsonl]   (writes an input for mutate.py)"""
import json
import os
import sys

root = os.path.dirname(os.path.dirname(os.path.abspath(__file__)))
last = {}
for l in open(os.path.join(root, 'seeded', 'LOG.jsonl')):
    o = json.loads(l)
    last[o['definition'], o['edit']] = o
out = []
for (d, e), o in last.items():
    if not o['failed'] and not o.get('equivalent') and ': ' in d and '  ->  ' in e:
        f, n = d.split(': ', 1)
        old, new = e.split('  ->  ', 1)
        out.append({'file': f, 'def': n, 'old': old, 'new': new, 'claim': o['claim']})
for o in out:
    print(o['file'], o['def'], '|', o['old'], ' -> ', o['new'])
if len(sys.argv) > 1:
    with open(sys.argv[1], 'w') as f:
        for o in out:
            f.write(json.dumps(o, ensure_ascii=False) + '\n')
