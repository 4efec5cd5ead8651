#!/usr/bin/env python3
"""Rewrite MANIFEST.json from the theorem names C??_* in lean/Verif/Props and the notes below."""
import json, re, glob, os
root = os.path.dirname(os.path.dirname(os.path.abspath(__file__)))
names = {}
for f in sorted(glob.glob(root + '/lean/Verif/Props/*.lean')):
    ns = []
    for line in open(f, encoding='utf-8'):
        m = re.match(r'namespace (\S+)', line)
        if m: ns.append(m.group(1))
        m = re.match(r'end (\S+)', line)
        if m and ns: ns.pop()
        m = re.match(r'(?:private )?theorem (C\d\d)_(\S+)', line)
        if m: names.setdefault(m.group(1), []).append('.'.join(ns + [m.group(1) + '_' + m.group(2)]))
notes = json.load(open(root + '/tools/notes.json', encoding='utf-8'))
claims = []
for line in open(root + '/properties.jsonl', encoding='utf-8'):
    i = json.loads(line)['id']
    n = notes.get(i, {})
    th = names.get(i, [])
    st = n.get('status')
    if not th and st is None: continue  # nothing proved yet
    if st is None:
        st = 'partial' if any(t.endswith('_partial') for t in th) else 'proved'
    claims.append({'property': i, 'status': st, 'theorems': th, 'note': n.get('note', '')})
json.dump({'claims': claims}, open(root + '/MANIFEST.json', 'w', encoding='utf-8'), ensure_ascii=False, indent=1)
for c in claims: print(c['property'], c['status'], len(c['theorems']))
