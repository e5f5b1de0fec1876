#!/usr/bin/env python3
"""Rewrite the section "Result per property" of DESIGN.md from tools/notes.json. Run from /verif."""
import json
notes = json.load(open('tools/notes.json'))
props = {x['id']: x for x in map(json.loads, open('properties.jsonl'))}
rows = ['| id | title | status | |', '|---|---|---|---|']
for i in sorted(props):
    rows.append(f"| {i} | {props[i]['title']} | {notes[i]['status']} | {notes[i]['note'].replace('|', '/')} |")
t = open('DESIGN.md').read()
a, b = t.index('<!-- results -->'), t.index('<!-- /results -->')
open('DESIGN.md', 'w').write(t[:a] + '<!-- results -->\n' + '\n'.join(rows) + '\n' + t[b:])
