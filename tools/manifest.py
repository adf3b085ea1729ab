#!/usr/bin/env python3
"""Regenerate MANIFEST.json from the theorem names in lean/Verif/Props and tools/status.json."""
import json, re, glob, collections, os
root = os.path.dirname(os.path.dirname(os.path.abspath(__file__)))
thms = collections.defaultdict(list)
for f in sorted(glob.glob(root + '/lean/Verif/Props/**/*.lean', recursive=True)):
    stack = []
    for line in open(f):
        if m := re.match(r'namespace (\S+)', line):
            stack.append(m.group(1))
        elif m := re.match(r'(?:noncomputable )?section\b', line):
            stack.append(None)
        elif re.match(r'end( \S+)?\s*$', line) and stack:
            stack.pop()
        elif m := re.match(r'theorem (C(\d\d+)_\w+)', line):
            thms['C' + m.group(2)].append('.'.join([x for x in stack if x] + [m.group(1)]))
status = json.load(open(root + '/tools/status.json'))
claims = []
for line in open(root + '/properties.jsonl'):
    if not line.strip():
        continue
    pid = json.loads(line)['id']
    st = status.get(pid)
    t = thms.get(pid, [])
    if st and st[0] == 'not_applicable':
        claims.append({'property': pid, 'status': 'not_applicable', 'theorems': t, 'note': st[1]})
    elif t:
        if not st:
            raise SystemExit('no status for ' + pid)
        claims.append({'property': pid, 'status': st[0], 'theorems': t, 'note': st[1]})
unknown = set(thms) - {json.loads(l)['id'] for l in open(root + '/properties.jsonl') if l.strip()}
if unknown:
    raise SystemExit('theorems without property: %s' % unknown)
json.dump({'claims': claims}, open(root + '/MANIFEST.json', 'w'), indent=1, ensure_ascii=False)
print(len(claims), 'claims', sum(len(c['theorems']) for c in claims), 'theorems')
