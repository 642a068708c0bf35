#!/usr/bin/env python3
"""Regenerate MANIFEST.json from the theorem names in lean/Verif/Props and the notes below."""
import json, re, glob, os
root = os.path.dirname(os.path.dirname(os.path.abspath(__file__)))
thms = {}
for f in sorted(glob.glob(root + '/lean/Verif/Props/*.lean')):
    ns = 'AsyncZip'
    for m in re.finditer(r'^theorem (C(\d{2,3})_\w+)', open(f).read(), re.M):
        thms.setdefault('C' + m.group(2), []).append(ns + '.' + m.group(1))
notes = json.load(open(root + '/tools/notes.json'))
claims = []
for line in open(root + '/properties.jsonl'):
    pid = json.loads(line)['id']
    ts = thms.get(pid, [])
    n = notes.get(pid)
    if not ts:
        continue
    status = 'partial' if any(t.endswith('_partial') or t.endswith('_fails') for t in ts) else 'proved'
    claims.append({'property': pid, 'status': status, 'theorems': ts, 'note': n or ''})
json.dump({'claims': claims}, open(root + '/MANIFEST.json', 'w'), indent=1, ensure_ascii=False)
print(len(claims), 'claims,', sum(len(c['theorems']) for c in claims), 'theorems;',
      'missing:', [json.loads(l)['id'] for l in open(root + '/properties.jsonl') if json.loads(l)['id'] not in thms])
