#!/usr/bin/env python3
"""Appends the generated per-property table to the hand-written tools/design_head.md, giving DESIGN.md."""
import json, re, os
root = os.path.dirname(os.path.dirname(os.path.abspath(__file__)))
props = {}
for l in open(root + '/properties.jsonl'):
    r = json.loads(l); props[r['id']] = r
man = {c['property']: c for c in json.load(open(root + '/MANIFEST.json'))['claims']}
how = {}
for l in open(root + '/tools/design_how.txt'):
    l = l.strip()
    if l:
        k, v = l.split(' ', 1); how[k] = v
where = {}
for d in ('Props', 'Lemmas', 'Model'):
    for f in sorted(os.listdir(f'{root}/lean/Verif/{d}')):
        for m in re.finditer(r'^theorem ([\w.\']+)', open(f'{root}/lean/Verif/{d}/{f}').read(), re.M):
            where.setdefault(m.group(1), f'{d}/{f[:-5]}')
out = open(root + '/tools/design_head.md').read()
for i in sorted(props):
    p, c = props[i], man[i]
    ths = [t.replace('Cesride.', '') for t in c['theorems']]
    files = sorted({where.get(t, where.get(t.split('.')[-1], '?')) for t in ths})
    out += f"\n### {i} {p['title']} — {c['status']}\n\n{how.get(i, '')}\n\n"
    out += "Theorems (" + ', '.join(f'`{f}`' for f in files) + "): " + ', '.join(f'`{t}`' for t in ths) + ".\n"
    if c.get('note'): out += f"\n{c['note']}\n"
open(root + '/DESIGN.md', 'w').write(out)
missing = [i for i in props if i not in how]
print(len(props), 'properties; without how:', missing)
