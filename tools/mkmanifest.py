#!/usr/bin/env python3
"""Collect the property theorems (names `Cnn_...` in lean/Verif/**/Props*.lean) into MANIFEST.json.
Status and notes are kept in tools/status.json: {"C01": {"status": ..., "note": ...}}."""
import json, re, glob, os
root = os.path.dirname(os.path.dirname(os.path.abspath(__file__)))
props = [json.loads(l) for l in open(root + '/properties.jsonl') if l.strip()]
st = json.load(open(root + '/tools/status.json'))
thms = {}
for f in sorted(glob.glob(root + '/lean/Verif/**/Props*.lean', recursive=True)):
    ns = None
    for line in open(f):
        m = re.match(r'namespace (\S+)', line)
        if m: ns = m.group(1)
        m = re.match(r'theorem ((C\d\d+)_\S+)', line)
        if m: thms.setdefault(m.group(2), []).append(ns + '.' + m.group(1))
claims = []
for p in props:
    i = p['id']
    s = st.get(i, {})
    t = thms.get(i, [])
    status = s.get('status', 'proved' if t else 'partial')
    note = s.get('note', '' if t else 'not yet formalised')
    if not t and 'status' not in s: continue
    claims.append({'property': i, 'status': status, 'theorems': t, 'note': note})
json.dump({'claims': claims}, open(root + '/MANIFEST.json', 'w'), indent=1, ensure_ascii=False)
from collections import Counter
print(Counter(c['status'] for c in claims), [c['property'] for c in claims if not c['theorems']])
