#!/usr/bin/env python3
"""Regenerates MANIFEST.json from the theorems in lean/Verif/Props and tools/status.json."""
import json, re, glob, os
root = os.path.dirname(os.path.dirname(os.path.abspath(__file__)))
st = json.load(open(f'{root}/tools/status.json'))
th = {}
for f in sorted(glob.glob(f'{root}/lean/Verif/Props/*.lean')):
    for m in re.finditer(r'^theorem (C\d\d)(_\w+)', open(f).read(), re.M):
        th.setdefault(m.group(1), []).append('Verif.Props.' + m.group(1) + m.group(2))
claims = []
for line in open(f'{root}/properties.jsonl'):
    pid = json.loads(line)['id']
    s = st.get(pid, {})
    ts = th.get(pid, [])
    if not ts and s.get('status') != 'not_applicable':
        continue
    claims.append({'property': pid, 'status': s.get('status', 'proved'), 'theorems': ts, 'note': s.get('note', '')})
json.dump({'claims': claims}, open(f'{root}/MANIFEST.json', 'w'), indent=1)
print(len(claims), 'claims,', sum(len(c['theorems']) for c in claims), 'theorems; missing:',
      [json.loads(l)['id'] for l in open(f'{root}/properties.jsonl') if json.loads(l)['id'] not in {c['property'] for c in claims}])
