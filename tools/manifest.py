#!/usr/bin/env python3
"""Regenerates MANIFEST.json from tools/claims.txt.

Line format:  Cnn | status | theorem theorem ... | note
"""
import json, os, sys
here = os.path.dirname(os.path.abspath(__file__))
claims = []
for line in open(os.path.join(here, 'claims.txt')):
    line = line.strip()
    if not line or line.startswith('#'):
        continue
    prop, status, thms, note = [x.strip() for x in line.split('|', 3)]
    assert status in ('proved', 'partial', 'not_applicable'), line
    claims.append({'property': prop, 'status': status,
                   'theorems': ['Verif.' + t for t in thms.split()], 'note': note})
claims.sort(key=lambda c: int(c['property'][1:]))
ids = [c['property'] for c in claims]
assert len(ids) == len(set(ids)), 'duplicate property'
with open(os.path.join(here, '..', 'MANIFEST.json'), 'w') as f:
    json.dump({'claims': claims}, f, indent=1)
    f.write('\n')
props = [json.loads(l)['id'] for l in open(os.path.join(here, '..', 'properties.jsonl'))]
print(len(claims), 'claims; properties without a claim:', [p for p in props if p not in ids])
if len(sys.argv) > 1:   # write a Lean file printing the axioms of every theorem
    with open(sys.argv[1], 'w') as f:
        f.write('import Verif\n')
        for c in claims:
            for t in c['theorems']:
                f.write('#print axioms %s\n' % t)
