"""Annotate lines of seeded/LOG.jsonl: stdin lines {"match": [substrings], "equivalent": "why"} or {"match", "tightened": [..]}."""
import json
import os
import sys

p = os.path.join(os.path.dirname(os.path.dirname(os.path.abspath(__file__))), 'seeded', 'LOG.jsonl')
notes = [json.loads(l) for l in sys.stdin if l.strip()]
ls = open(p).read().split('\n')
for n, l in enumerate(ls):
    if not l:
        continue
    o = json.loads(l)
    for a in notes:
        if not o['failed'] and all(m in o['definition'] + ' ' + o['edit'] for m in a['match']):
            o.update({k: v for k, v in a.items() if k != 'match'})
            ls[n] = json.dumps(o, ensure_ascii=False)
            print(n + 1, o['definition'])
open(p, 'w').write('\n'.join(ls))
