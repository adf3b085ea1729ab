#!/usr/bin/env python3
"""Seed bugs into a scratch copy of the model and record which theorems stop proving.

usage: mutate.py [ids...]      runs the entries of seeded/mutations.jsonl that are not in seeded/LOG.jsonl
Each entry: {"id", "file", "definition", "old", "new", "edit", "breaks"}.
"""
import json, os, re, subprocess, sys, shutil
V = '/verif'
S = os.environ.get('MUT_SCRATCH', '/tmp/mut')
MUT = V + '/seeded/mutations.jsonl'
LOG = V + '/seeded/LOG.jsonl'

def sync():
    os.makedirs(S, exist_ok=True)
    if not os.path.exists(S + '/lean'):
        shutil.copytree(V + '/lean', S + '/lean', symlinks=True)
    shutil.rmtree(S + '/lean/Verif')
    shutil.copytree(V + '/lean/Verif', S + '/lean/Verif')
    shutil.copy2(V + '/lean/Verif.lean', S + '/lean/Verif.lean')

def enclosing(path, line):
    name = None
    for i, l in enumerate(open(path), 1):
        if i > line: break
        m = re.match(r'\s*(?:private\s+|protected\s+)?(theorem|def|example|instance)\s*([^\s:({]*)', l)
        if m: name = m.group(2) or m.group(1)
    return name

def build():
    p = subprocess.run(['lake', 'build'], cwd=S + '/lean', capture_output=True, text=True)
    out = p.stdout + p.stderr
    errs = []
    for m in re.finditer(r'error: (Verif/[\w/]+\.lean):(\d+):', out):
        f, l = m.group(1), int(m.group(2))
        n = enclosing(S + '/lean/' + f, l)
        t = f'{f}:{n}'
        if t not in errs: errs.append(t)
    mods = re.findall(r'^- (Verif[\w.]*)$', out, re.M)
    return p.returncode == 0, errs, mods, out

def importers(mods):
    """Props modules that import one of the failed modules, directly or not."""
    deps = {}
    for r, _, fs in os.walk(S + '/lean/Verif'):
        for f in fs:
            if f.endswith('.lean'):
                p = os.path.join(r, f)
                mod = os.path.relpath(p, S + '/lean')[:-5].replace('/', '.')
                deps[mod] = set(re.findall(r'^import (Verif[\w.]*)', open(p).read(), re.M))
    bad = set(mods)
    ch = True
    while ch:
        ch = False
        for m, d in deps.items():
            if m not in bad and d & bad: bad.add(m); ch = True
    return sorted(m for m in bad if m.startswith('Verif.Props.'))

def main():
    want = set(sys.argv[1:])
    done = set()
    if os.path.exists(LOG):
        for l in open(LOG):
            if l.strip(): done.add(json.loads(l).get('id'))
    sync()
    for l in open(MUT).read().splitlines():
        if not l.strip(): continue
        m = json.loads(l)
        if want and m['id'] not in want: continue
        if not want and m['id'] in done: continue
        path = S + '/lean/' + m['file']
        src = open(path).read()
        if src.count(m['old']) != 1:
            print(m['id'], 'PATTERN COUNT', src.count(m['old'])); continue
        open(path, 'w').write(src.replace(m['old'], m['new']))
        ok, errs, mods, out = build()
        open(path, 'w').write(src)
        if not ok and any(m['file'] == e.split(':')[0] for e in errs):
            print(m['id'], 'MODEL DOES NOT BUILD', errs); print(out[-1500:]); continue
        rec = {'id': m['id'], 'definition': m['definition'], 'file': m['file'], 'edit': m['edit'],
               'breaks': m['breaks'], 'theorems_failed': errs, 'property_modules_failed': importers(mods) if not ok else [],
               'survived': ok, 'tightened': m.get('tightened', [])}
        if 'note' in m: rec['note'] = m['note']
        with open(LOG, 'a') as f: f.write(json.dumps(rec, ensure_ascii=False) + '\n')
        print(m['id'], 'SURVIVED' if ok else 'killed', errs[:4], flush=True)
main()
