#!/usr/bin/env python3
"""Regenerates MANIFEST.json and lean/Verif.lean from the sources.
Theorem names: every theorem named Cxx_... under lean/Verif/Props belongs to property Cxx."""
import json, re, glob, os
root = os.path.dirname(os.path.dirname(os.path.abspath(__file__)))
props = [json.loads(l)['id'] for l in open(root + '/properties.jsonl')]
notes = json.load(open(root + '/tools/notes.json'))
th = {p: [] for p in props}
for f in sorted(glob.glob(root + '/lean/Verif/Props/*.lean')):
    ns = []
    for line in open(f):
        m = re.match(r'namespace (\S+)', line)
        if m: ns.append(m.group(1))
        m = re.match(r'end (\S+)', line)
        if m and ns and ns[-1] == m.group(1): ns.pop()
        m = re.match(r'theorem ((C\d\d)_\S+)', line)
        if m: th.setdefault(m.group(2), []).append('.'.join(ns + [m.group(1)]))
claims = []
for p in props:
    n = notes.get(p, {})
    if th[p] or n:
        st = n.get('status', 'partial' if all('_partial' in t for t in th[p]) and th[p] else 'proved')
        claims.append({"property": p, "status": st, "theorems": th[p], "note": n.get('note', '')})
json.dump({"claims": claims}, open(root + '/MANIFEST.json', 'w'), indent=1, ensure_ascii=False)
mods = sorted(os.path.relpath(f, root + '/lean')[:-5].replace('/', '.')
              for f in glob.glob(root + '/lean/Verif/**/*.lean', recursive=True))
open(root + '/lean/Verif.lean', 'w').write(''.join(f'import {m}\n' for m in mods))
print(len(claims), 'claims;', sum(len(c['theorems']) for c in claims), 'theorems; missing:',
      [p for p in props if not th[p]])
