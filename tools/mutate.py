"""Apply one edit at a time to a scratch copy of the model and record which theorems stop building.

usage: mutate.py edits.jsonl   (each line: {"file", "def", "old", "new", "claim"})
Appends one line per edit to seeded/LOG.jsonl. The scratch copy is /tmp/mut."""
import json
import os
import re
import shutil
import subprocess
import sys

root = os.path.dirname(os.path.dirname(os.path.abspath(__file__)))
scratch = '/tmp/mut/lean'
log = os.path.join(root, 'seeded', 'LOG.jsonl')


def sync():
    os.makedirs(scratch, exist_ok=True)
    subprocess.run(['rsync', '-a', '--delete', root + '/lean/', scratch + '/'], check=True) if shutil.which('rsync') else (
        shutil.rmtree(scratch), shutil.copytree(root + '/lean', scratch, symlinks=True, copy_function=shutil.copy2))


def owner(path, line):
    """Name of the declaration that contains a line."""
    name = None
    ls = open(os.path.join(scratch, path)).read().split('\n')
    for n in range(line - 1, -1, -1):
        m = re.match(r'(?:@\[[^\]]*\] *)?(?:private |protected |noncomputable )*(theorem|lemma|def|instance|example|abbrev|structure)\b *([^\s:({\[]*)', ls[n])
        if m:
            name = m.group(2) or m.group(1)
            if m.group(1) == 'example':
                # attribute to the theorem it demonstrates
                name = 'example'
                t = re.search(r'C\d\d\w+', ' '.join(ls[n:n + 6]))
                if t:
                    name = 'example of ' + t.group(0)
            break
    return name


def block(src, name):
    """Range of the definition with this name, or the whole file."""
    d = re.search(r'^(?:noncomputable )?(?:def|abbrev|structure|inductive) ' + re.escape(name) + r'(?=[\s:({\[])', src, re.M)
    if not d:
        return 0, len(src)
    e = re.search(r'\n\n(?=\S)', src[d.start():])
    return d.start(), d.start() + e.start() if e else len(src)


def main():
    sync()
    for l in open(sys.argv[1]):
        if not l.strip():
            continue
        m = json.loads(l)
        p = os.path.join(scratch, m['file'])
        src = open(p).read()
        a, b = block(src, m['def'])
        k = src[a:b].count(m['old'])
        if k != 1:
            print('SKIP', m['file'], m['def'], 'occurrences', k, flush=True)
            continue
        open(p, 'w').write(src[:a] + src[a:b].replace(m['old'], m['new']) + src[b:])
        try:
            r = subprocess.run(['lake', 'build'], cwd=scratch, capture_output=True, text=True, timeout=3000)
            out = r.stdout + r.stderr
        except subprocess.TimeoutExpired:
            out = 'error: timeout'
        failed = []
        for e in re.finditer(r'^error: (Verif/[\w/]+\.lean):(\d+):', out, re.M):
            o = owner(e.group(1), int(e.group(2)))
            if o and o not in failed:
                failed.append(o)
        open(p, 'w').write(src)
        rec = {'definition': m['file'] + ': ' + m['def'], 'edit': m['old'].strip() + '  ->  ' + m['new'].strip(),
               'claim': m['claim'], 'failed': failed, 'tightened': []}
        print(('SURVIVED ' if not failed else 'killed ') + m['def'], '|', rec['edit'][:120].replace('\n', ' '), '|', failed[:6], len(failed), flush=True)
        with open(log, 'a') as f:
            f.write(json.dumps(rec, ensure_ascii=False) + '\n')


main()
