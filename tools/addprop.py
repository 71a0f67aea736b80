#!/usr/bin/env python3
"""Append properties (JSON lines on stdin: property fields + 'note' + 'design') to properties.jsonl, notes.json, DESIGN.md."""
import json,sys
ids={json.loads(l)['id'] for l in open('properties.jsonl')}
notes=json.load(open('tools/notes.json'))
for l in sys.stdin:
    if not l.strip(): continue
    p=json.loads(l); note=p.pop('note',None); d=p.pop('design',None)
    if p['id'] not in ids: open('properties.jsonl','a').write(json.dumps(p,ensure_ascii=False)+'\n')
    if note: notes[p['id']]={'note':note}
    if d:
        s=open('DESIGN.md').read().split('\n')
        i=max(k for k,x in enumerate(s) if x.startswith('| C'))
        s.insert(i+1,f"| {p['id']} | {d[0]} | {d[1]} |")
        open('DESIGN.md','w').write('\n'.join(s))
json.dump(notes,open('tools/notes.json','w'),indent=1,ensure_ascii=False)
