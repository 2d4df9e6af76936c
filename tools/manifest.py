#!/usr/bin/env python3
"""Regenerate MANIFEST.json and lean/Verif/Axioms.lean and lean/Verif.lean from the theorem names Cnn_* in
lean/Verif/Props, and the notes in tools/notes.json."""
import json, os, re
root = os.path.dirname(os.path.dirname(os.path.abspath(__file__)))
props = [json.loads(l) for l in open(f'{root}/properties.jsonl') if l.strip()]
notes = json.load(open(f'{root}/tools/notes.json'))
thms, mods = {}, []
base = f'{root}/lean/Verif'
for dp, _, fs in sorted(os.walk(base)):
    for f in sorted(fs):
        if not f.endswith('.lean'):
            continue
        p = os.path.join(dp, f)
        mod = 'Verif.' + os.path.relpath(p, base)[:-5].replace('/', '.')
        if mod == 'Verif.Axioms':
            continue
        mods.append(mod)
        if not mod.startswith('Verif.Props.'):
            continue
        ns = []
        for line in open(p):
            m = re.match(r'namespace (Verif\S*)', line)
            if m:
                ns.append(m.group(1))
            m = re.match(r'end (\S+)', line)
            if m and ns and ns[-1] == m.group(1):
                ns.pop()
            m = re.match(r'theorem (C(\d+)\w*)', line)
            if m:
                thms.setdefault('C' + m.group(2), []).append(('.'.join(ns + [m.group(1)]), mod))
claims = []
for p in props:
    i = p['id']
    ts = [t for t, _ in thms.get(i, [])]
    n = notes.get(i, '')
    if isinstance(n, dict):
        status, n = n['status'], n['note']
    elif not ts:
        status, n = 'partial', (n or 'not yet modelled')
    else:
        status = 'partial' if any(t.endswith('_partial') or t.endswith('_fails') for t in ts) else 'proved'
    claims.append({'property': i, 'status': status, 'theorems': ts, 'note': n})
    if status == 'partial' and not n:
        print('no note for partial', i)
unknown = set(thms) - {p['id'] for p in props}
if unknown:
    print('theorems without property:', unknown)
json.dump({'claims': claims}, open(f'{root}/MANIFEST.json', 'w'), indent=1)
pm = sorted({m for ts in thms.values() for _, m in ts})
with open(f'{base}/Axioms.lean', 'w') as f:
    f.write(''.join(f'import {m}\n' for m in pm))
    f.write('\n/-! Prints the axioms of every property theorem (generated by tools/manifest.py). -/\n\n')
    for i in sorted(thms):
        for t, _ in thms[i]:
            f.write(f'#print axioms {t}\n')
with open(f'{root}/lean/Verif.lean', 'w') as f:
    f.write(''.join(f'import {m}\n' for m in mods + ['Verif.Axioms']))
print(len(props), 'properties;', sum(len(t) for t in thms.values()), 'theorems;',
      {s: sum(c['status'] == s for c in claims) for s in ('proved', 'partial', 'not_applicable')},
      'without theorems:', [c['property'] for c in claims if not c['theorems']])
