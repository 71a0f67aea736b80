#!/usr/bin/env python3
"""Regenerate MANIFEST.json from the theorems in lean/Verif/Props and the notes below."""
import json, re, glob, os
root = os.path.dirname(os.path.dirname(os.path.abspath(__file__)))
notes = json.load(open(os.path.join(root, 'tools', 'notes.json')))
ids = [json.loads(l)['id'] for l in open(os.path.join(root, 'properties.jsonl')) if l.strip()]
thms = {}
for f in sorted(glob.glob(os.path.join(root, 'lean/Verif/Props/*.lean'))):
    ns = []
    for line in open(f):
        m = re.match(r'namespace (\S+)', line)
        if m: ns.append(m.group(1))
        m = re.match(r'end (\S+)', line)
        if m and ns and ns[-1] == m.group(1): ns.pop()
        m = re.match(r'theorem ((C\d+)_\S+)', line)
        if m: thms.setdefault(m.group(2), []).append('.'.join(ns + [m.group(1)]))
claims = []
for i in ids:
    ts = thms.get(i, [])
    n = notes.get(i, {})
    if not ts:
        st = n.get('status', 'not_applicable'); note = n.get('note', 'not proved yet')
    else:
        part = any('_partial' in t or '_counterexample' in t for t in ts)
        st = n.get('status', 'partial' if part else 'proved'); note = n.get('note', '')
    claims.append({'property': i, 'status': st, 'theorems': ts, 'note': note})
json.dump({'claims': claims}, open(os.path.join(root, 'MANIFEST.json'), 'w'), indent=1, ensure_ascii=False)
from collections import Counter
print(Counter(c['status'] for c in claims), [c['property'] for c in claims if not c['theorems']])
