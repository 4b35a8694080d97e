"""Which source lines of /repo are cited by a definition of the model.

Usage: python3 tools/coverage.py [-v]
Collects citations of the form `file.py:12-34, 40` in lean/Verif and prints, per
file of /repo, the code lines (no blanks, comments, imports) that no citation covers.
"""
import re, sys, glob, os
ROOT = os.path.dirname(os.path.dirname(os.path.abspath(__file__)))
files = {}
for p in glob.glob('/repo/src/**/*.py', recursive=True):
    files.setdefault(os.path.basename(p), []).append(p)
cited = {}
for lf in glob.glob(ROOT + '/lean/Verif/**/*.lean', recursive=True):
    t = re.sub(r'/-!.*?-/', '', open(lf).read(), flags=re.S)  # per-definition citations only
    for m in re.finditer(r'([\w/]+\.py)[:,]?\s*((?:\d+(?:\s*[-–]\s*\d+)?(?:\s*(?:,|and|;)\s*(?=\d))?\s*)+)', t):
        name = m.group(1)
        base = os.path.basename(name)
        c = [p for p in files.get(base, []) if p.endswith(name)] or files.get(base, [])
        for p in c:
            for r in re.finditer(r'(\d+)(?:\s*[-–]\s*(\d+))?', m.group(2)):
                a = int(r.group(1)); b = int(r.group(2) or a)
                cited.setdefault(p, set()).update(range(a, b + 1))
for p in sorted(sum(files.values(), [])):
    ls = open(p).read().split('\n')
    code = [i for i, l in enumerate(ls, 1) if l.strip() and not l.strip().startswith(('#', 'import ', 'from ', '"""', '@'))]
    un = [i for i in code if i not in cited.get(p, set())]
    print(f'{os.path.relpath(p, "/repo/src")}: {len(code)-len(un)}/{len(code)}')
    if '-v' in sys.argv and un:
        runs = []
        for i in un:
            if runs and i - runs[-1][1] <= 2: runs[-1][1] = i
            else: runs.append([i, i])
        print('   uncited:', ', '.join(f'{a}-{b}' if a != b else str(a) for a, b in runs))
