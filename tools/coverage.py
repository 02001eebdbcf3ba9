"""Regenerate COVERAGE.md: for every module the modelled definitions with the source citation from their docstring."""
import os
import re

root = os.path.dirname(os.path.dirname(os.path.abspath(__file__)))
out = ['# Modelled definitions', '',
       'Generated by `tools/coverage.py` from the docstrings: definition, cited source (file as named in the module '
       'header unless given) and simplifications.', '']
for d, ds, fs in sorted(os.walk(os.path.join(root, 'lean', 'Verif'))):
    ds.sort()
    for f in sorted(fs):
        if not f.endswith('.lean'):
            continue
        s = open(os.path.join(d, f)).read()
        head = re.search(r'/-!\s*(.*?)-/', s, re.S)
        rel = os.path.relpath(os.path.join(d, f), os.path.join(root, 'lean'))
        rows = []
        for m in re.finditer(r'/--((?:(?!-/).)*)-/\s*(?:@\[[^\]]*\]\s*)?(?:noncomputable )?(?:private )?(def|structure|inductive|abbrev) (\S+)', s, re.S):
            doc = ' '.join(m.group(1).split())
            if re.search(r'\d{2,}', doc):
                rows.append(f'| `{m.group(3)}` | {doc.replace("|", chr(92) + "|")} |')
        if rows:
            out += [f'## {rel}', '']
            if head:
                out += [head.group(1).strip().split('\n')[0].lstrip('# '), '']
            out += ['| definition | source |', '|---|---|'] + rows + ['']
open(os.path.join(root, 'COVERAGE.md'), 'w').write('\n'.join(out))
