#!/usr/bin/env python3
"""Collect the headline theorems (names C<nn>_...) from lean/Verif and write MANIFEST.json.

Status: a property whose headline theorems include a counterexample or a `_partial` theorem is "partial" unless
listed in PROVED; the notes are in tools/notes.json.
"""
import json, re, os, glob
root = os.path.join(os.path.dirname(os.path.abspath(__file__)), '..')
names = {}
for f in sorted(glob.glob(os.path.join(root, 'lean/Verif/**/*.lean'), recursive=True)):
    stack = []
    for line in open(f, encoding='utf8'):
        m = re.match(r'(?:noncomputable )?(namespace|section)\s*(\S*)', line)
        if m:
            stack.append((m.group(1), m.group(2)))
            continue
        m = re.match(r'end(\s+(\S+))?\s*$', line)
        if m and stack:
            stack.pop()
            continue
        m = re.match(r'(?:private |protected )?theorem ((C\d+)_\S+)', line)
        if m:
            ns = '.'.join(n for k, n in stack if k == 'namespace')
            names.setdefault(m.group(2), []).append((ns + '.' if ns else '') + m.group(1))
notes = json.load(open(os.path.join(root, 'tools/notes.json'), encoding='utf8'))
claims = []
for line in open(os.path.join(root, 'properties.jsonl'), encoding='utf8'):
    p = json.loads(line)
    i = p['id']
    th = names.get(i, [])
    n = notes.get(i, {})
    status = n.get('status')
    if status is None:
        if not th:
            status = 'partial'
        elif any('_partial' in t or 'counterexample' in t for t in th):
            status = 'partial'
        else:
            status = 'proved'
    note = n.get('note', '' if th else 'not proved yet')
    claims.append({'property': i, 'status': status, 'theorems': th, 'note': note})
json.dump({'claims': claims}, open(os.path.join(root, 'MANIFEST.json'), 'w', encoding='utf8'), indent=1, ensure_ascii=False)
print(sum(c['status'] == 'proved' for c in claims), 'proved,', sum(c['status'] == 'partial' and bool(c['theorems']) for c in claims), 'partial,', sum(not c['theorems'] for c in claims), 'open')
