#!/usr/bin/env python3
"""Seed small random bugs into definitions of the model that no entry of seeded/mutations.jsonl touches.

usage: automutate.py OUT SCRATCH [seed]
Works in SCRATCH (a copy of lean/), stops each build at the first theorem that fails, appends one JSON line per edit to OUT.
"""
import json, os, random, re, shutil, subprocess, sys, collections
V = '/verif'
OUT, S = sys.argv[1], sys.argv[2]
random.seed(int(sys.argv[3]) if len(sys.argv) > 3 else 1)
SKIP = {'Str.lean', 'StrX.lean', 'Bytes.lean', 'Parser.lean', 'Ast.lean', 'Map.lean', 'Outcome.lean', 'Time.lean', 'Float.lean'}
OPS = [(r' ≤ ', ' < '), (r' < ', ' ≤ '), (r' ≥ ', ' > '), (r' > ', ' ≥ '), (r' \+ 1\b', ''), (r' - 1\b', ''),
       (r'\bmin ', 'max '), (r'\bmax ', 'min '), (r' && ', ' || '), (r' \|\| ', ' && '), (r' ∧ ', ' ∨ '), (r' ∨ ', ' ∧ '),
       (r'\btrue\b', 'false'), (r'\bfalse\b', 'true'), (r'\.1\b', '.2'), (r'\.2\b', '.1'), (r' \+ ', ' - '), (r' - ', ' + '),
       (r' = ', ' ≠ '), (r' ≠ ', ' = '), (r' == ', ' != '), (r' != ', ' == '), (r'\.any\b', '.all'), (r'\.all\b', '.any'),
       (r'\.reverse\b', ''), (r'takeWhile', 'dropWhile'), (r'dropWhile', 'takeWhile'), (r'\btake\b', 'drop'), (r'\bdrop\b', 'take'),
       (r'\.x\b', '.y'), (r'\.y\b', '.x'), (r'\.w\b', '.h'), (r'\.h\b', '.w'), (r'\.start\b', '.stop'), (r'\.head\?', '.getLast?'),
       (r'\.none\b', '.none'), (r'!', '')]

def defs(path):
    """(name, start, end) of the body of each definition."""
    t = open(path).read()
    ms = list(re.finditer(r'^(?:private )?(def|abbrev)\s+(\S+)', t, re.M))
    res = []
    for m in ms:
        nxt = re.search(r'^(?:/--|/-!|def |abbrev |structure |inductive |theorem |end |namespace |open |private |instance )', t[m.end():], re.M)
        e = m.end() + (nxt.start() if nxt else len(t) - m.end())
        body = re.search(r':=|\n  \| ', t[m.end():e])
        b = m.end() + (body.start() if body else 0)
        res.append((m.group(2), b, e))
    return t, res

def candidates(t, b, e):
    body = t[b:e]
    out = []
    for pat, new in OPS:
        for m in re.finditer(pat, body):
            if m.group(0) != new: out.append((b + m.start(), b + m.end(), new))
    for m in re.finditer(r'(?<![\w.?])(\d+)(?![\w.])', body):
        out.append((b + m.start(), b + m.end(), str(int(m.group(1)) + 1)))
    for m in re.finditer(r'"([^"\\]{2,})"\.toList', body):
        s = m.group(1)
        out.append((b + m.start(), b + m.end(), '"' + s[:-1] + ('z' if s[-1] != 'z' else 'y') + '".toList'))
    return out

def enclosing(path, line):
    name = None
    for i, l in enumerate(open(path), 1):
        if i > line: break
        m = re.match(r'\s*(?:private\s+|protected\s+)?(theorem|def|example|instance)\s*([^\s:({]*)', l)
        if m: name = m.group(2) or m.group(1)
    return name

def build(model):
    p = subprocess.Popen(['lake', 'build'], cwd=S + '/lean', stdout=subprocess.PIPE, stderr=subprocess.STDOUT, text=True, start_new_session=True)
    for l in p.stdout:
        m = re.match(r'error: (Verif/[\w/]+\.lean):(\d+):', l)
        if m:
            os.killpg(p.pid, 9); p.wait()
            f = m.group(1)
            return ('invalid' if f == model else 'killed'), f + ':' + str(enclosing(S + '/lean/' + f, int(m.group(2)))), l
    p.wait()
    return ('survived' if p.returncode == 0 else 'broken'), None, ''

def main():
    os.makedirs(S, exist_ok=True)
    if not os.path.exists(S + '/lean'): shutil.copytree(V + '/lean', S + '/lean', symlinks=True)
    shutil.rmtree(S + '/lean/Verif'); shutil.copytree(V + '/lean/Verif', S + '/lean/Verif')
    shutil.copy2(V + '/lean/Verif.lean', S + '/lean/Verif.lean')
    have = collections.defaultdict(set)
    for l in open(V + '/seeded/mutations.jsonl'):
        m = json.loads(l); have[os.path.basename(m['file'])].add(m['definition'].split('.')[-1])
    done = set()
    if os.path.exists(OUT):
        for l in open(OUT):
            r = json.loads(l); done.add((r['file'], r['definition']))
    todo = []
    for f in sorted(os.listdir(S + '/lean/Verif/Model')):
        if f in SKIP: continue
        for n, b, e in defs(S + '/lean/Verif/Model/' + f)[1]:
            if n.split('.')[-1] not in have[f] and ('Verif/Model/' + f, n) not in done: todo.append((f, n))
    random.shuffle(todo)
    print(len(todo), 'definitions', flush=True)
    for f, n in todo:
        rel = 'Verif/Model/' + f
        path = S + '/lean/' + rel
        t, ds = defs(path)
        b, e = next((b, e) for m, b, e in ds if m == n)
        cs = candidates(t, b, e)
        random.shuffle(cs)
        for i, j, new in cs[:4]:
            u = t[:i] + new + t[j:]
            open(path, 'w').write(u)
            res, thm, line = build(rel)
            open(path, 'w').write(t)
            if res == 'invalid': continue
            ls = t.rfind('\n', 0, i) + 1
            le = t.find('\n', j)
            rec = {'file': rel, 'definition': n, 'old': t[ls:le], 'new': t[ls:i] + new + t[j:le], 'result': res, 'failed': thm}
            with open(OUT, 'a') as o: o.write(json.dumps(rec, ensure_ascii=False) + '\n')
            print(res, f, n, '|', rec['new'].strip(), flush=True)
            break
main()
