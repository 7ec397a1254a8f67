#!/usr/bin/env python3
"""Write MANIFEST.json from the theorems named C<nn>_... in lean/Verif/Props."""
import glob, json, re, os
root = os.path.join(os.path.dirname(os.path.abspath(__file__)), '..')
thms = {}
for f in sorted(glob.glob(os.path.join(root, 'lean/Verif/Props/*.lean'))):
    for m in re.finditer(r'^theorem (C\d+)(_\w+)', open(f).read(), re.M):
        thms.setdefault(m.group(1), []).append('Svgdom.' + m.group(1) + m.group(2))
notes = json.load(open(os.path.join(root, 'tools/notes.json')))
claims = []
for l in open(os.path.join(root, 'properties.jsonl')):
    p = json.loads(l)['id']
    if p not in thms:
        continue
    st = 'partial' if any(t.endswith('_partial') or t.endswith('_refuted') for t in thms[p]) else 'proved'
    claims.append({'property': p, 'status': st, 'theorems': thms[p], 'note': notes.get(p, '')})
with open(os.path.join(root, 'MANIFEST.json'), 'w') as o:
    o.write('{"claims": [\n' + ',\n'.join(' ' + json.dumps(c) for c in claims) + '\n]}\n')
print(len(claims), 'claims')
