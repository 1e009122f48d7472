#!/usr/bin/env python3
"""Regenerate MANIFEST.json: theorem names are collected from lean/Verif/Props, status and notes from the table below."""
import json, re, glob, os
root = os.path.dirname(os.path.dirname(os.path.abspath(__file__)))
notes = {}
for line in open(os.path.join(root, 'tools', 'notes.txt')):
    line = line.rstrip('\n')
    if line:
        pid, status, note = line.split('\t')
        notes[pid] = (status, note)
thms = {}
for f in sorted(glob.glob(os.path.join(root, 'lean/Verif/Props/**/*.lean'), recursive=True)):
    for m in re.finditer(r'^(?:private |protected )?theorem (C\d\d+)(_\S+)', open(f).read(), re.M):
        thms.setdefault(m.group(1), []).append('Mazth.' + m.group(1) + m.group(2))
claims = []
for l in open(os.path.join(root, 'properties.jsonl')):
    pid = json.loads(l)['id']
    if pid in thms and pid in notes:
        claims.append({'property': pid, 'status': notes[pid][0], 'theorems': thms[pid], 'note': notes[pid][1]})
    elif pid in thms:
        print('no note for', pid)
    else:
        print('no theorems for', pid)
json.dump({'claims': claims}, open(os.path.join(root, 'MANIFEST.json'), 'w'), indent=1)
