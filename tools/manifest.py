#!/usr/bin/env python3
"""Regenerates MANIFEST.json from the table below; checks that every listed theorem exists in lean/Verif."""
import json, re, glob, os
root = os.path.dirname(os.path.dirname(os.path.abspath(__file__)))
NOTES = {}
exec(open(os.path.join(root, 'tools', 'notes.py')).read())
thms = {}
for f in glob.glob(os.path.join(root, 'lean/Verif/**/*.lean'), recursive=True):
    for m in re.finditer(r'^theorem (C\d\d\d?_[A-Za-z0-9_]+)', open(f).read(), re.M):
        thms.setdefault(m.group(1).split('_')[0], []).append('GeNSIT.' + m.group(1))
claims = []
for l in open(os.path.join(root, 'properties.jsonl')):
    pid = json.loads(l)['id']
    status, note = NOTES.get(pid, (None, None))
    if status is None:
        if pid in thms: print('no note for', pid)
        continue
    assert status == 'not_applicable' or pid in thms, pid
    claims.append({'property': pid, 'status': status, 'theorems': thms.get(pid, []), 'note': note})
json.dump({'claims': claims}, open(os.path.join(root, 'MANIFEST.json'), 'w'), indent=1)
print(len(claims), 'claims,', sum(len(c['theorems']) for c in claims), 'theorems')
