"""Writes DESIGN.md: hand-written head, then the table of properties and the axioms of the theorems."""
import json, os
R = os.path.dirname(os.path.dirname(os.path.abspath(__file__)))
head = open(R + '/tools/design_head.md').read()
A = json.load(open(R + '/tools/approach.json'))
M = {c['property']: c for c in json.load(open(R + '/MANIFEST.json'))['claims']}
out = [head, '## The properties\n', 'Statements are in `properties.jsonl`. Theorems are in `lean/Verif/Props`.\n']
for l in open(R + '/properties.jsonl'):
    p = json.loads(l)
    c = M[p['id']]
    out.append(f"### {p['id']} {p['title']} — {c['status']}\n")
    out.append(f"*Modelled and proved by:* {A.get(p['id'], '')}.\n")
    if c['note']:
        out.append(f"*Remarks:* {c['note']}\n")
    out.append('*Theorems:* ' + ', '.join('`' + t.split('.')[-1] + '`' for t in c['theorems']) + '\n')
out.append('## Axioms\n')
ax = {}
for l in open(R + '/tools/axioms.tsv'):
    n, a = l.rstrip('\n').split('\t')
    ax.setdefault(a or 'none', []).append(n.split('.')[-1])
for a in sorted(ax, key=len):
    out.append(f'* **{a.replace(" ", ", ")}** ({len(ax[a])}): ' + ', '.join(sorted(ax[a])) + '\n')
open(R + '/DESIGN.md', 'w').write('\n'.join(out))
