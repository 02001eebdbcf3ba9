"""Regenerate FINDINGS.md: theorems that refute an expected property of the code (names with `fails`), and the
properties proved only in part (suffix `_partial`), with their docstrings."""
import os
import re

root = os.path.dirname(os.path.dirname(os.path.abspath(__file__)))
fails, parts, missing = {}, {}, []
for d, ds, fs in sorted(os.walk(os.path.join(root, 'lean', 'Verif'))):
    for f in sorted(fs):
        if not f.endswith('.lean'):
            continue
        s = open(os.path.join(d, f)).read()
        rel = os.path.relpath(os.path.join(d, f), os.path.join(root, 'lean', 'Verif'))
        docs = {m.group(2): ' '.join(m.group(1).split()) for m in
                re.finditer(r'/--((?:(?!-/).)*)-/\s*(?:@\[[^\]]*\]\s*)?theorem (\S+)', s, re.S)}
        for m in re.finditer(r'^theorem ((C\d\d+)_\S+)', s, re.M):
            t = m.group(1)
            doc = re.sub(r'^\**C\d+[^.:]*[.:]\**\s*', '', docs.get(t, ''))
            if '_fails' in t:
                fails.setdefault(m.group(2), []).append((t, rel, doc))
            elif t.endswith('_partial'):
                parts.setdefault(m.group(2), []).append((t, rel, doc))
            else:
                continue
            if not doc:
                missing.append(t)
out = ['# Disagreements between the code and its expected behaviour', '',
       'Generated by `tools/findings.py`. Each theorem proves, about the model, that the stated expectation is false.', '']
for k in sorted(fails, key=lambda k: int(k[1:])):
    out += [f'* **{k}** `{t}` ({rel}): {doc}' for t, rel, doc in fails[k]]
out += ['', '# Partial theorems', '', 'What holds where the full property does not, or was not proved.', '']
for k in sorted(parts, key=lambda k: int(k[1:])):
    out += [f'* **{k}** `{t}` ({rel}): {doc}' for t, rel, doc in parts[k]]
open(os.path.join(root, 'FINDINGS.md'), 'w').write('\n'.join(out) + '\n')
print(sum(map(len, fails.values())), 'refutations,', sum(map(len, parts.values())), 'partial; without docstring:', missing)
