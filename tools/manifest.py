#!/usr/bin/env python3
"""Regenerate MANIFEST.json from the theorem names in lean/Verif/Props and tools/notes.json."""
import json, re, pathlib
root = pathlib.Path(__file__).resolve().parent.parent
notes = json.load(open(root / 'tools/notes.json'))
ids = [json.loads(l)['id'] for l in open(root / 'properties.jsonl')]
found = {}
for f in sorted((root / 'lean/Verif/Props').glob('*.lean')):
    for m in re.finditer(r'^theorem (C\d\d\w*)', f.read_text(), re.M):
        found.setdefault(m.group(1).split('_')[0], []).append('HttpIo.' + m.group(1))
claims = []
for i in ids:
    n = notes.get(i)
    if not n:
        continue
    th = found.get(i, [])
    if n['status'] != 'not_applicable' and not th:
        continue
    claims.append({'property': i, 'status': n['status'], 'theorems': th, 'note': n['note']})
json.dump({'claims': claims}, open(root / 'MANIFEST.json', 'w'), indent=1)
print(len(claims), 'claims;', sum(c['status'] == 'proved' for c in claims), 'proved;',
      'missing:', [i for i in ids if i not in {c['property'] for c in claims}])
