"""Turn mutation results (written by a scratch runner outside /verif) into seeded/LOG.jsonl.

usage: mutlog.py RESULTS DEPS [OLD_RESULTS]
RESULTS: one JSON per line with file, def, edit, old, new, claim, rc, failed
DEPS: lines 'Cnn_theorem<TAB>constants it depends on'
OLD_RESULTS: an earlier run; an edit that survived there and is killed now was tightened.
"""
import json, os, re, sys
res = [json.loads(l) for l in open(sys.argv[1])]
deps = {}
for l in open(sys.argv[2]):
    a, b = l.rstrip('\n').split('\t')
    for c in b.split(' '):
        deps.setdefault(c, set()).add(a)


def full_names(path, d):
    """Possible full names of the declaration `d` of the file: its namespaces, nested prefixes included."""
    out, cur = [], []
    p = os.path.join(os.path.dirname(os.path.dirname(os.path.abspath(__file__))), 'lean', path)
    for l in open(p):
        m = re.match(r'namespace (\S+)', l)
        if m:
            out.append(m.group(1) + '.' + d)
            out += [o[:-len(d)] + m.group(1) + '.' + d for o in out]
    return out + [d]
old = {}
if len(sys.argv) > 3:
    old = {json.loads(l)['key']: json.loads(l) for l in open(sys.argv[3])}
for r in res:
    failed, blocked = [], set()
    for f, ds in r['failed'].items():
        for d in ds:
            failed.append(d)
            if d.startswith('C') and d[1:3].isdigit():
                blocked.add(d)
            for n in full_names(f, d):
                blocked |= deps.get(n, set())
    o = old.get(r['key'])
    tight = []
    if o is not None and o['rc'] == 0 and r['rc'] != 0:
        tight = sorted(blocked) or failed
    print(json.dumps({
        'definition': r['def'], 'file': 'lean/Verif/' + r['file'],
        'edit': '%s: `%s` -> `%s`' % (r['edit'], r['old'], r['new']),
        'claim': r['claim'],
        'outcome': ('survived' if r['rc'] == 0 else 'killed') if not tight else 'survived at first, killed after tightening',
        'theorems_failed': failed,
        'claim_theorems_lost': sorted(blocked),
        'theorems_tightened': tight,
        'note': r.get('note', ''),
    }, ensure_ascii=False))
