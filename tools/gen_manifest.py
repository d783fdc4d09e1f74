#!/usr/bin/env python3
"""Regenerate MANIFEST.json: collects every theorem whose name starts with a property id."""
import glob, json, os, re
root = os.path.dirname(os.path.dirname(os.path.abspath(__file__)))
props = [json.loads(l) for l in open(f'{root}/properties.jsonl')]
notes = json.load(open(f'{root}/tools/notes.json'))
found = {}
for f in sorted(glob.glob(f'{root}/lean/Verif/**/*.lean', recursive=True)):
    ns = []
    for line in open(f):
        m = re.match(r'namespace (\S+)', line)
        if m: ns.append(m.group(1))
        m = re.match(r'end (\S+)', line)
        if m and ns and ns[-1] == m.group(1): ns.pop()
        m = re.match(r'theorem (C\d\d+)(_\S+)', line)
        if m: found.setdefault(m.group(1), []).append('.'.join(ns + [m.group(1) + m.group(2)]))
claims = []
for p in props:
    i = p['id']
    n = notes.get(i, {})
    th = found.get(i, [])
    st = n.get('status') or ('partial' if (not th or all(t.endswith('_partial') for t in th)) else 'proved')
    if not th and st == 'proved': st = 'partial'
    claims.append({'property': i, 'status': st, 'theorems': th, 'note': n.get('note', '')})
json.dump({'claims': claims}, open(f'{root}/MANIFEST.json', 'w'), indent=1, ensure_ascii=False)
from collections import Counter
print(Counter(c['status'] for c in claims), 'without theorem:', [c['property'] for c in claims if not c['theorems']])
