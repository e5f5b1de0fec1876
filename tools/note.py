#!/usr/bin/env python3
"""note.py ID STATUS NOTE...: record the status of a property in notes.json."""
import json, sys, pathlib
p = pathlib.Path(__file__).resolve().parent / 'notes.json'
d = json.load(open(p))
a = sys.argv[1:]
for i in range(0, len(a), 3):
    d[a[i]] = {'status': a[i + 1], 'note': a[i + 2]}
json.dump(dict(sorted(d.items())), open(p, 'w'), indent=0)
