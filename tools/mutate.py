#!/usr/bin/env python3
"""Seeded-bug runner.  usage: mutate.py mutants.json
Each mutant: {"file": "Model/Graph.lean", "definition": "...", "old": "...", "new": "...", "edit": "...", "claim": "C01 ..."}.
The edit is made in a scratch copy of /verif/lean; the project is rebuilt; the declarations in which the build
breaks are reported and one line is appended to /verif/seeded/LOG.jsonl."""
import json, os, re, shutil, subprocess, sys
SRC, DST, LOG = os.environ.get('MUT_SRC', '/verif/lean'), '/tmp/mut', '/verif/seeded/LOG.jsonl'
def sync():
    subprocess.run(['rsync', '-a', '--delete', SRC + '/', DST + '/'], check=False) if shutil.which('rsync') else (
        shutil.rmtree(DST, ignore_errors=True), shutil.copytree(SRC, DST, symlinks=True))
def decl_at(path, line):
    name = None
    for i, l in enumerate(open(path), 1):
        if i > line: break
        m = re.match(r'\s*(?:@\[.*?\]\s*)?(?:private )?(?:theorem|lemma|def|example|instance|abbrev)\b\s*([\w.\'?]*)', l)
        if m: name = m.group(1) or 'example@%d' % i
    return name
def imports(mod, seen):
    p = os.path.join(DST, mod.replace('.', '/') + '.lean')
    for l in open(p):
        m = re.match(r'import (Verif\.\S+)', l)
        if m and m.group(1) not in seen:
            seen.add(m.group(1)); imports(m.group(1), seen)
    return seen
def run(mu):
    sync()
    p = os.path.join(DST, 'Verif', mu['file'])
    s = open(p).read()
    if s.count(mu['old']) != 1:
        print('BAD MUTANT (%d matches): %s' % (s.count(mu['old']), mu['edit'])); return
    open(p, 'w').write(s.replace(mu['old'], mu['new']))
    r = subprocess.run(['lake', 'build'], cwd=DST, capture_output=True, text=True)
    out = r.stdout + r.stderr
    broken, badmods = [], set()
    for m in re.finditer(r'error: (Verif/\S+?\.lean):(\d+):', out):
        n = decl_at(os.path.join(DST, m.group(1)), int(m.group(2)))
        badmods.add(m.group(1)[:-5].replace('/', '.'))
        if n and n not in broken: broken.append(n)
    if any(b.startswith('Verif.Model.') for b in badmods):
        print('INVALID (the edited model is ill-typed): ' + mu['edit'], flush=True); return
    lost = []
    pd = os.path.join(DST, 'Verif/Props')
    for f in sorted(os.listdir(pd)):
        mod = 'Verif.Props.' + f[:-5]
        if imports(mod, set()) & badmods: lost.append(f)
    mine = [b for b in broken if re.match(r'C\d\d', b)]
    rec = {'definition': mu['definition'], 'edit': mu['edit'], 'claim': mu['claim'], 'failed': broken,
           'property_files_left_unproved': lost, 'build_passed': r.returncode == 0, 'tightened': mu.get('tightened', [])}
    print(json.dumps(rec)[:600], flush=True)
    if r.returncode == 0: print('   *** SURVIVED ***', flush=True)
    with open(LOG, 'a') as f: f.write(json.dumps(rec) + '\n')
for mu in json.load(open(sys.argv[1])): run(mu)
