"""Operator mutation of the model definitions, in a scratch copy (/tmp/amut).

usage: automutate.py [-n PER_DEF] [-s SEED] modules...   (e.g. Eos/Alpha Activity/NRTL)
For every definition that no line of seeded/LOG.jsonl mentions, tries up to PER_DEF edits (an operator, comparison,
constant, Boolean or branch changed). Edits that do not elaborate are dropped; the others are appended to
seeded/LOG.jsonl with the declarations that stop building."""
import json
import os
import random
import re
import shutil
import subprocess
import sys

sys.path.insert(0, os.path.dirname(os.path.abspath(__file__)))
root = os.path.dirname(os.path.dirname(os.path.abspath(__file__)))
scratch = '/tmp/amut/lean'
log = os.path.join(root, 'seeded', 'LOG.jsonl')
OPS = [(r'(?<= )\+(?= )', '-', 'sum for difference'), (r'(?<= )-(?= )', '+', 'difference for sum'),
       (r'(?<= )\*(?= )', '+', 'product replaced by a sum'), (r'(?<= )/(?= )', '*', 'quotient replaced by a product'),
       (r'(?<= )<(?= )', '≤', 'boundary included'), (r'(?<= )≤(?= )', '<', 'boundary excluded'),
       (r'(?<= )<(?= )', '>', 'comparison reversed'), (r'(?<= )≤(?= )', '≥', 'comparison reversed'),
       (r'(?<= )∧(?= )', '∨', 'and replaced by or'), (r'(?<= )∨(?= )', '∧', 'or replaced by and'),
       (r'(?<= )&&(?= )', '||', 'and replaced by or'), (r'(?<= )\|\|(?= )', '&&', 'or replaced by and'),
       (r'(?<= )=(?= )', '≠', 'test negated'), (r'(?<= )≠(?= )', '=', 'test negated'),
       (r'(?<= )==(?= )', '!=', 'test negated'), (r'(?<= )!=(?= )', '==', 'test negated'),
       (r'\btrue\b', 'false', 'flag flipped'), (r'\bfalse\b', 'true', 'flag flipped'),
       (r'\bmax\b', 'min', 'max for min'), (r'\bmin\b', 'max', 'min for max'),
       (r'(?<![\w.])-(?=[\w(])', '', 'sign dropped'),
       (r'\^ 2\b', '^ 3', 'wrong power'), (r'\^ 3\b', '^ 2', 'wrong power'),
       (r'(?<![\w.^])2(?![\w.])', '3', 'wrong constant'), (r'(?<![\w.^])1(?![\w.])', '2', 'wrong constant'),
       (r'(?<![\w.^])0(?![\w.])', '1', 'wrong constant'), (r'(?<![\w.^])(\d*\.\d+)', None, 'wrong constant'),
       (r'\bReal\.exp\b', 'Real.log', 'wrong function'), (r'\bReal\.log\b', 'Real.exp', 'wrong function'),
       (r'\bhead\?', 'getLast?', 'wrong end of a list'), (r'\.1\b', '.2', 'wrong part of a pair'), (r'\.2\b', '.1', 'wrong part of a pair'),
       (r'\.all\b', '.any', 'all replaced by any'), (r'\.any\b', '.all', 'any replaced by all'),
       (r'\bzs i\b', 'zs j', 'wrong index'), (r'\bi j\b', 'j i', 'indices swapped'), (r'\bj i\b', 'i j', 'indices swapped'),
       (r'\bif (?!let)', 'if ¬ ', 'branches exchanged'), (r'\bnone\b', None, None)]
OPS = [o for o in OPS if o[2]]


def defs(src):
    """(name, doc, start, end) of every definition; a block ends at the next blank line."""
    out = []
    for d in re.finditer(r'^(?:@\[[^\]]*\]\s*)?(?:noncomputable )?def ([\w.\'₀-₉]+)', src, re.M):
        e = re.search(r'\n\n(?=\S)', src[d.start():])
        end = d.start() + e.start() if e else len(src)
        doc = ''
        before = src[:d.start()].rstrip()
        if before.endswith('-/'):
            k = before.rfind('/--')
            if k >= 0:
                doc = ' '.join(before[k + 3:-2].split())
        out.append((d.group(1), doc, d.start(), end))
    return out


def owner(src, line):
    ls = src.split('\n')
    for n in range(line - 1, -1, -1):
        m = re.match(r'(?:@\[[^\]]*\] *)?(?:private |protected |noncomputable )*(theorem|lemma|def|instance|example|abbrev|structure)\b *([^\s:({\[]*)', ls[n])
        if m:
            if m.group(1) == 'example':
                t = re.search(r'C\d\d\w+', ' '.join(ls[n:n + 6]))
                return 'example of ' + t.group(0) if t else 'example'
            return m.group(2) or m.group(1)


def build(target):
    try:
        r = subprocess.run(['nice', 'lake', 'build'] + target, cwd=scratch, capture_output=True, text=True, timeout=2400)
        return r.stdout + r.stderr
    except subprocess.TimeoutExpired:
        return 'error: Verif/timeout.lean:1:'


def failures(out, rd):
    f = []
    for e in re.finditer(r'^error: (Verif/[\w/]+\.lean):(\d+):', out, re.M):
        o = owner(rd(e.group(1)), int(e.group(2))) if 'timeout' not in e.group(1) else 'timeout'
        if o and o not in f:
            f.append(o)
    return f


def main():
    args = sys.argv[1:]
    per, seed = 2, 1
    while args and args[0].startswith('-'):
        if args[0] == '-n':
            per = int(args[1])
        if args[0] == '-s':
            seed = int(args[1])
        args = args[2:]
    rng = random.Random(seed)
    os.makedirs(scratch, exist_ok=True)
    shutil.rmtree(scratch)
    shutil.copytree(root + '/lean', scratch, symlinks=True, copy_function=shutil.copy2)
    seen = set()
    for l in open(log):
        d = json.loads(l)['definition']
        seen.add(tuple(d.split(': ', 1)) if ': ' in d else ('', d))
    for mod in args:
        rel = f'Verif/{mod}.lean'
        p = os.path.join(scratch, rel)
        src = open(p).read()
        for name, doc, a, b in defs(src):
            if (rel, name) in seen or name.startswith('demo'):
                continue
            body = src[a:b]
            k = body.find(':=')
            k2 = body.find('\n  |')
            k = min(x for x in (k, k2) if x >= 0) if max(k, k2) >= 0 else None
            if k is None:
                continue
            cands = []
            for pat, new, what in OPS:
                for m in re.finditer(pat, body[k + 2:]):
                    r = new if new is not None else str(float(m.group(0)) * 1.5)
                    cands.append((k + 2 + m.start(), k + 2 + m.end(), r, what))
            rng.shuffle(cands)
            done = 0
            tries = 0
            used = set()
            for s, e, r, what in cands:
                if done >= per or tries >= per + 3:
                    break
                if any(s == u for u in used):
                    continue
                used.add(s)
                tries += 1
                new = src[:a] + body[:s] + r + body[e:] + src[b:]
                open(p, 'w').write(new)

                def rd(f):
                    return open(os.path.join(scratch, f)).read()
                out = build(['Verif.' + mod.replace('/', '.')])
                failed = failures(out, rd)
                if not failed and 'error' not in out:
                    out = build([])
                    failed = failures(out, rd)
                ls, le = body.rfind('\n', 0, s) + 1, body.find('\n', e)
                le = len(body) if le < 0 else le
                edit = body[ls:le].strip() + '  ->  ' + (body[ls:s] + r + body[e:le]).strip()
                if name in failed or (not failed and 'error' in out):
                    print('INVALID', name, '|', edit[:150], flush=True)
                    continue
                done += 1
                print('killed' if failed else 'SURVIVED', rel, name, '|', edit[:200], '|', failed[:5], len(failed), flush=True)
                with open(log, 'a') as f:
                    f.write(json.dumps({'definition': rel + ': ' + name, 'edit': edit,
                                        'claim': f'{doc[:160] or name} ({what})', 'failed': failed, 'tightened': []},
                                       ensure_ascii=False) + '\n')
            open(p, 'w').write(src)


main()
