#!/usr/bin/env python3
"""Regenerate MANIFEST.json and lean/Verif.lean from the sources (run from /verif)."""
import re, json, glob, os
here = os.path.dirname(os.path.dirname(os.path.abspath(__file__)))
mods = sorted(glob.glob(here + '/lean/Verif/**/*.lean', recursive=True))
with open(here + '/lean/Verif.lean', 'w') as f:
    for m in mods:
        rel = os.path.relpath(m, here + '/lean')[:-5].replace('/', '.')
        f.write(f'import {rel}\n')
thms = {}
for m in sorted(glob.glob(here + '/lean/Verif/Props/*.lean')):
    ns = []
    for line in open(m):
        g = re.match(r'\s*namespace\s+(\S+)', line)
        if g:
            ns.append(g.group(1)); continue
        g = re.match(r'\s*section\b\s*(\S*)', line)
        if g:
            ns.append(None); continue
        g = re.match(r'\s*(?:noncomputable\s+)?section\b', line)
        if g:
            ns.append(None); continue
        if re.match(r'\s*end\b', line) and ns:
            ns.pop(); continue
        g = re.match(r'(?:@\[[^\]]*\]\s*)?theorem\s+(C(\d\d+)_\S+)', line)
        if g:
            full = '.'.join([n for n in ns if n] + [g.group(1)])
            thms.setdefault('C' + g.group(2), []).append(full)
notes = json.load(open(here + '/tools/notes.json')) if os.path.exists(here + '/tools/notes.json') else {}
claims = []
for l in open(here + '/properties.jsonl'):
    p = json.loads(l)['id']
    t = thms.get(p, [])
    n = notes.get(p, {})
    if isinstance(n, str):
        n = {'note': n}
    status = n.get('status')
    if not status:
        if not t:
            status = 'partial'
        elif any(x.endswith('_partial') for x in t):
            status = 'partial'
        else:
            status = 'proved'
    if not t and status != 'not_applicable':
        continue
    claims.append({'property': p, 'status': status, 'theorems': t, 'note': n.get('note', '')})
json.dump({'claims': claims}, open(here + '/MANIFEST.json', 'w'), indent=1)
print(len(claims), 'claims', sum(len(c['theorems']) for c in claims), 'theorems')
