#!/usr/bin/env python3
"""Write COVERAGE.md: which lines of /repo the definitions of the model cite."""
import os, re, collections
root = os.path.join(os.path.dirname(__file__), '..')
cite = re.compile(r'((?:include/)?(?:common|qbsp|vis|light|bspinfo|bsputil)/[A-Za-z0-9_./]+\.(?:cc|hh|h|cpp))((?::\s*|,?\s+lines?\s+)?)([0-9][0-9]*(?:-[0-9]+)?(?:\s*,\s*[0-9]+(?:-[0-9]+)?)*)?')
cov = collections.defaultdict(lambda: collections.defaultdict(set))
for d, _, fs in os.walk(os.path.join(root, 'lean/Verif')):
    for f in fs:
        if not f.endswith('.lean'): continue
        p = os.path.join(d, f)
        mod = os.path.relpath(p, os.path.join(root, 'lean/Verif'))[:-5]
        text = open(p).read()
        for m in cite.finditer(text):
            if not m.group(3) or not m.group(2).strip().startswith(':'): 
                cov[m.group(1)][mod]
                continue
            for r in m.group(3).split(','):
                r = r.strip()
                a, _, b = r.partition('-')
                a = int(a); b = int(b) if b else a
                if b >= a: cov[m.group(1)][mod].add((a, b))
out = ['# Lines of /repo cited by the model', '',
       'Generated by `tools/coverage.py` from the comments of the definitions. Everything that is not listed is not',
       'modelled. Overlapping ranges are joined.', '', '| file | lines | modules |', '|---|---|---|']
for f in sorted(cov):
    rs = sorted(r for m in cov[f].values() for r in m)
    j = []
    for a, b in rs:
        if j and a <= j[-1][1] + 1: j[-1][1] = max(j[-1][1], b)
        else: j.append([a, b])
    if not j: continue
    out.append('| %s | %s | %s |' % (f, ', '.join('%d-%d' % (a, b) if a != b else '%d' % a for a, b in j),
                                     ', '.join(sorted(m for m in cov[f] if cov[f][m]))))
open(os.path.join(root, 'COVERAGE.md'), 'w').write('\n'.join(out) + '\n')
