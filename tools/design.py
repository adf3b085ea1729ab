#!/usr/bin/env python3
"""Regenerate the lists in DESIGN.md that follow from the Lean sources: modelled files, disagreements, axioms.

With --axioms also rebuild AXIOMS.txt (needs a finished `lake build`)."""
import json, re, glob, os, subprocess, sys, collections
root = os.path.dirname(os.path.dirname(os.path.abspath(__file__)))
manifest = json.load(open(root + '/MANIFEST.json'))
titles = {}
for line in open(root + '/properties.jsonl'):
    if line.strip():
        d = json.loads(line)
        titles[d['id']] = d['title']

# docstrings of the theorems
docs = {}
for f in glob.glob(root + '/lean/Verif/Props/*.lean'):
    s = open(f).read()
    for m in re.finditer(r'/--((?:(?!-/).)*?)-/\s*(?:set_option [^\n]* in\s*)?theorem (C\d\d+_\w+)', s, re.S):
        docs[m.group(2)] = ' '.join(m.group(1).split())

out = []
for c in manifest['claims']:
    for t in c['theorems']:
        n = t.split('.')[-1]
        if n.endswith('_violated'):
            d = docs.get(n, '')
            d = re.sub(r'^\*\*C\d+[,.]?( is)?( violated)?', '', d).replace('**', '', 1).lstrip(' .,:')
            out.append(f"* `{n}` ({titles[c['property']]}): {d}")
disagreements = '\n'.join(out)

files = []
for f in sorted(glob.glob(root + '/lean/Verif/Model/*.lean')):
    s = open(f).read()
    m = re.search(r'/-!\s*# (.*?)(?:\n\n|-/)', s, re.S)
    head = ' '.join(m.group(1).split())
    files.append(f"* `Model/{os.path.basename(f)}`: {head}")
modelled = '\n'.join(files)

if '--axioms' in sys.argv:
    src = 'import Verif\n' + ''.join(f'#print axioms {t}\n' for c in manifest['claims'] for t in c['theorems'])
    open('/tmp/axioms.lean', 'w').write(src)
    r = subprocess.run(['lake', 'env', 'lean', '/tmp/axioms.lean'], cwd=root + '/lean', capture_output=True, text=True)
    if r.returncode:
        raise SystemExit(r.stdout[:2000])
    open(root + '/AXIOMS.txt', 'w').write(re.sub(r'\n (?=\S)', ' ', r.stdout))
groups = collections.Counter()
for line in open(root + '/AXIOMS.txt'):
    m = re.search(r'\[(.*)\]', line)
    groups[m.group(1) if m else 'none'] += 1
axioms = '\n'.join(f'* {v} theorems: {k}' for k, v in groups.most_common())

d = open(root + '/DESIGN.md').read()
for name, text in [('modelled', modelled), ('disagreements', disagreements), ('axioms', axioms)]:
    d = re.sub(rf'(<!-- {name} -->\n).*?(<!-- /{name} -->)', lambda m: m.group(1) + text + '\n' + m.group(2), d, flags=re.S)
open(root + '/DESIGN.md', 'w').write(d)
print(len(out), 'disagreements')
